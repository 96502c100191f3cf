import Verif.Base.Contract
import Verif.Spec.Optimal
import Verif.Spec.Textbook
/-!
# Every demand cache plays demand paging

Helper file: a cache with the properties C01–C05 that keeps each missed object is one of the ways of demand paging of `Verif/Spec/Optimal.lean`.
-/

namespace Verif
open Spec

variable {σ : Type}

theorem run_gets (A : Algo σ) (rs : List Req) (s : σ) : A.run s (rs.map Op.get) = A.gets s rs := by
  induction rs generalizing s with
  | nil => rfl
  | cons r rs ih =>
    simp only [List.map_cons, Algo.run, Algo.gets, Algo.step]
    cases A.get s r with
    | error e => rfl
    | ok x => simp only [Res.bind_ok, ih]

/-- In the states `s` that the trace reaches, the cache admits the requests of the trace. -/
def AdmitsAll (A : Algo σ) (admits : σ → Req → Bool) (s0 : σ) (okOp : Op → Prop) (trace : List Req) : Prop :=
  ∀ pre out s, (∀ r ∈ pre, okOp (.get r)) → A.gets s0 pre = .ok (out, s) → ∀ r ∈ trace, admits s r = true

theorem demandPlay {A : Algo σ} {cached : σ → Contents} {s0 : σ} {okOp : Op → Prop} {cs md sz : Nat} {admits : σ → Req → Bool}
    (hcap : Capacity A s0 okOp cs) (hacc : Accounting A cached s0 okOp md) (hhit : HitIffCached A cached s0 okOp)
    (hph : NoPhantom A cached s0 okOp) (hadd : AddsOnlyRequested A cached s0 okOp) (hadm : AdmittedMissCached A cached admits s0 okOp)
    (hu : 0 < sz + md) (hsm : sz < u32) (trace : List Req) (hok : ∀ r ∈ trace, okOp (.get r)) (hsz : ∀ r ∈ trace, r.size = sz)
    (hall : AdmitsAll A admits s0 okOp trace) :
    ∃ out s, A.gets s0 trace = .ok (out, s) ∧ Play (cs / (sz + md)) ∅ (trace.map Req.id) (out.count true) := by
  have key : ∀ (post pre : List Req) (out : List Bool) (s : σ), (∀ r ∈ pre ++ post, r ∈ trace) → A.gets s0 pre = .ok (out, s) →
      ∃ out' s', A.gets s post = .ok (out', s') ∧ Play (cs / (sz + md)) (cached s).ids.toFinset (post.map Req.id) (out'.count true) := by
    intro post
    induction post with
    | nil => intro pre out s _ _; exact ⟨[], s, rfl, Play.done _⟩
    | cons r post ih =>
      intro pre out s hin hg
      have hpre : ∀ op ∈ pre.map Op.get, okOp op := by
        intro op hop
        obtain ⟨q, hq, rfl⟩ := List.mem_map.1 hop
        exact hok q (hin q (List.mem_append_left _ hq))
      have hrt : r ∈ trace := hin r (by simp)
      have hre : Reaches A s0 (pre.map Op.get) out s := by rw [Reaches, run_gets]; exact hg
      obtain ⟨_, _, hget⟩ := hhit _ _ _ hpre hre
      obtain ⟨s1, hs1⟩ := hget r (hok r hrt)
      have hg1 : A.gets s0 (pre ++ [r]) = .ok (out ++ [decide (r.id ∈ (cached s).ids)], s1) := by
        rw [← run_gets, List.map_append, run_append]
        have : A.run s0 (pre.map Op.get) = .ok (out, s) := hre
        rw [this]
        simp [Algo.run, Algo.step, hs1]
      obtain ⟨out', s', h1, h2⟩ := ih (pre ++ [r]) _ s1 (by intro q hq; exact hin q (by simpa using hq)) hg1
      refine ⟨decide (r.id ∈ (cached s).ids) :: out', s', by simp [Algo.gets, hs1, h1], ?_⟩
      have hsub : ∀ x ∈ (cached s1).ids, x ∈ (cached s).ids ∨ x = r.id := by
        intro x hx
        obtain ⟨y, hy, rfl⟩ := List.mem_map.1 hx
        rcases hadd _ _ _ hpre hre (.get r) _ s1 (hok r hrt) hs1 y hy with h | ⟨q, hq, rfl⟩
        · exact Or.inl (List.mem_map.2 ⟨y, h, rfl⟩)
        · simp [insertedBy] at hq; subst hq; exact Or.inr rfl
      by_cases hin' : r.id ∈ (cached s).ids
      · simp only [hin', decide_true, List.count_cons_self, List.map_cons]
        refine Play.hit (by simpa using hin') ?_ h2
        intro x hx
        rw [List.mem_toFinset] at hx ⊢
        rcases hsub x hx with h | h
        · exact h
        · rw [h]; exact hin'
      · simp only [hin', decide_false, List.map_cons]
        rw [List.count_cons_of_ne (by decide)]
        have hpre1 : ∀ op ∈ (pre ++ [r]).map Op.get, okOp op := by
          intro op hop
          obtain ⟨q, hq, rfl⟩ := List.mem_map.1 hop
          exact hok q (hin q (by
            rcases List.mem_append.1 hq with h | h
            · exact List.mem_append_left _ h
            · simp at h; subst h; simp))
        have hre1 : Reaches A s0 ((pre ++ [r]).map Op.get) (out ++ [decide (r.id ∈ (cached s).ids)]) s1 := by rw [Reaches, run_gets]; exact hg1
        refine Play.miss (by simpa using hin') ?_ ?_ ?_ h2
        · intro x hx
          rw [List.mem_toFinset] at hx
          rw [Finset.mem_insert, List.mem_toFinset]
          exact (hsub x hx).symm
        · obtain ⟨s2, k1, k2⟩ := hadm _ _ _ hpre hre r (hok r hrt) hin' (hall pre out s (fun q hq => hok q (hin q (List.mem_append_left _ hq))) hg r hrt)
          rw [hs1] at k1
          obtain rfl : s1 = s2 := congrArg Prod.snd (Except.ok.inj k1)
          rw [List.mem_toFinset]
          exact List.mem_map.2 ⟨_, k2, rfl⟩
        · have hc := hcap _ _ _ hpre1 hre1
          obtain ⟨ho, _⟩ := hacc _ _ _ hpre1 hre1
          obtain ⟨_, hfrom⟩ := hph _ _ _ hpre1 hre1
          have hsizes : ∀ x ∈ cached s1, x.2 = sz := by
            intro x hx
            obtain ⟨p, op, q, w, e1, e2, _, e4, _⟩ := hfrom x hx
            have hmem : op ∈ (pre ++ [r]).map Op.get := by rw [e1]; simp
            obtain ⟨w', hw', rfl⟩ := List.mem_map.1 hmem
            simp [insertedBy] at e2
            subst e2
            have hw : w' ∈ trace := hin w' (by
              rcases List.mem_append.1 hw' with h | h
              · exact List.mem_append_left _ h
              · simp at h; subst h; simp)
            rw [← e4, hsz w' hw]
            exact Nat.mod_eq_of_lt hsm
          have hbytes : ∀ c : Contents, (∀ x ∈ c, x.2 = sz) → bytes md c = c.length * (sz + md) := by
            intro c
            induction c with
            | nil => intro _; simp [bytes]
            | cons a c ihc =>
              intro hcs
              have := ihc fun x hx => hcs x (by simp [hx])
              have ha := hcs a (by simp)
              simp only [bytes, List.map_cons, List.sum_cons, List.length_cons] at this ⊢
              rw [this, ha, Nat.succ_mul]; omega
          rw [ho, hbytes _ hsizes] at hc
          have hc' : (cached s1).length * (sz + md) ≤ cs := by exact_mod_cast hc
          have hle := List.toFinset_card_le (cached s1).ids
          rw [Nat.le_div_iff_mul_le hu]
          refine Nat.le_trans (Nat.mul_le_mul_right _ ?_) hc'
          simpa using hle
  obtain ⟨out, s, h1, h2⟩ := key trace [] [] s0 (by simp) rfl
  refine ⟨out, s, h1, ?_⟩
  have he : cached s0 = [] := by
    obtain ⟨_, h⟩ := hph [] [] s0 (by simp) rfl
    apply List.eq_nil_iff_forall_not_mem.2
    intro x hx
    obtain ⟨p, op, q, w, e1, _⟩ := h x hx
    simp at e1
  rw [he] at h2
  exact h2

/-- Without an admission policy a textbook cache never gets one. -/
theorem trun_none {τ : Type} (D : Discipline τ) (C md : Nat) (ops : List Op) (t : TState τ) (h : t.adm = .none) : (trun D C md t ops).2.adm = .none := by
  induction ops generalizing t with
  | nil => exact h
  | cons op ops ih =>
    refine ih _ ?_
    cases op with
    | get r =>
      simp only [tstep, tget]
      split
      · exact h
      · split <;> simp [h, Adm.admit]
    | find r u => simp only [tstep]; split <;> exact h
    | remove id => simp only [tstep]; split <;> exact h
    | evict r => simp only [tstep]; split <;> exact h
    | insert r => simp only [tstep]; split <;> exact h

theorem follows_admits {τ : Type} {A : Algo σ} {s0 : σ} {okOp : Op → Prop} {D : Discipline τ} {cs md : Nat} {t0 : TState τ} {view : σ → TState τ}
    (hf : Follows A s0 okOp D cs md t0 view) (h0 : t0.adm = .none) (admits : σ → Req → Bool) (trace : List Req)
    (ha : ∀ pre out s, (∀ op ∈ pre, okOp op) → Reaches A s0 pre out s → (view s).adm = .none → ∀ r ∈ trace, admits s r = true) :
    AdmitsAll A admits s0 okOp trace := by
  intro pre out s hpre hg r hr
  have hpre' : ∀ op ∈ pre.map Op.get, okOp op := by
    intro op hop
    obtain ⟨q, hq, rfl⟩ := List.mem_map.1 hop
    exact hpre q hq
  have hre : Reaches A s0 (pre.map Op.get) out s := by rw [Reaches, run_gets]; exact hg
  obtain ⟨out', s', h1, h2⟩ := hf _ hpre'
  have : s' = s := by
    unfold Reaches at hre h1
    rw [hre] at h1; cases h1; rfl
  subst this
  have := trun_none D cs md (pre.map Op.get) t0 h0
  rw [h2] at this
  exact ha _ _ _ hpre' hre this r hr

/-! Fewer calls: the statements stay true. -/

section
variable {A : Algo σ} {cached : σ → Contents} {s0 : σ} {okOp okOp' : Op → Prop} (hw : ∀ op, okOp' op → okOp op)
include hw

theorem Spec.Capacity.mono {cs : Nat} (h : Capacity A s0 okOp cs) : Capacity A s0 okOp' cs := fun ops out s ho => h ops out s fun op hm => hw op (ho op hm)

theorem Spec.Accounting.mono {md : Nat} (h : Accounting A cached s0 okOp md) : Accounting A cached s0 okOp' md := fun ops out s ho => h ops out s fun op hm => hw op (ho op hm)

theorem Spec.HitIffCached.mono (h : HitIffCached A cached s0 okOp) : HitIffCached A cached s0 okOp' := fun ops out s ho hr =>
  have ⟨h1, h2, h3⟩ := h ops out s (fun op hm => hw op (ho op hm)) hr
  ⟨fun r hr => h1 r (hw _ hr), fun r hr => h2 r (hw _ hr), fun r hr => h3 r (hw _ hr)⟩

theorem Spec.NoPhantom.mono (h : NoPhantom A cached s0 okOp) : NoPhantom A cached s0 okOp' := fun ops out s ho => h ops out s fun op hm => hw op (ho op hm)

theorem Spec.AddsOnlyRequested.mono (h : AddsOnlyRequested A cached s0 okOp) : AddsOnlyRequested A cached s0 okOp' := fun ops out s ho hr op b s' hop =>
  h ops out s (fun op hm => hw op (ho op hm)) hr op b s' (hw _ hop)

theorem Spec.AdmittedMissCached.mono {admits : σ → Req → Bool} (h : AdmittedMissCached A cached admits s0 okOp) : AdmittedMissCached A cached admits s0 okOp' :=
  fun ops out s ho hr r hok => h ops out s (fun op hm => hw op (ho op hm)) hr r (hw _ hok)

end

end Verif
