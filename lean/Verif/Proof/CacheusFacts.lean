import Verif.Proof.CacheusRun
/-!
# Consequences of the refinement of Cacheus
-/

namespace Verif.Cacheus
open Verif Verif.Spec
open Verif.Spec.Cacheus (Weighing St without note forget leave limitPast spill)

variable {A : Arith} {cs : Nat} {W : Type}

/-! ### a new object stays -/

theorem mem_without {l : Contents} {id : ObjId} {x : ObjId × Nat} : x ∈ without l id ↔ x ∈ l ∧ x.1 ≠ id := by
  unfold without
  simp

theorem spill_keep (half : Nat) {x : ObjId × Nat} : ∀ (n : Nat) (t : St W), x ∈ t.keep → x.1 ∉ t.trial.ids → x ∈ (spill half n t).contents := by
  intro n
  induction n with
  | zero => intro t h _; exact List.mem_append_left _ h
  | succ n ih =>
    intro t h hn
    unfold spill
    split
    · rename_i y hy
      split
      · have hne : x.1 ≠ y.1 := fun e => hn (by rw [e]; exact List.mem_map_of_mem (f := Prod.fst) (List.mem_of_getLast? hy))
        refine ih _ (mem_without.2 ⟨h, hne⟩) ?_
        intro hm
        obtain ⟨z, hz, e⟩ := List.mem_map.1 hm
        exact hn (by rw [← e]; exact List.mem_map_of_mem (f := Prod.fst) (mem_without.1 hz).1)
      · exact List.mem_append_left _ h
    · exact List.mem_append_left _ h

theorem spill_front (half : Nat) {x : ObjId × Nat} (hx : x.2 ≤ half) : ∀ (n : Nat) (t : St W) (rest : Contents), t.trial = x :: rest → x.1 ∉ rest.ids → x ∈ (spill half n t).contents := by
  intro n
  induction n with
  | zero => intro t rest h _; exact List.mem_append_right _ (by show x ∈ t.trial; rw [h]; exact List.mem_cons_self)
  | succ n ih =>
    intro t rest h hn
    have hin : x ∈ t.contents := List.mem_append_right _ (by rw [h]; exact List.mem_cons_self)
    unfold spill
    split
    · rename_i y hy
      split
      · rename_i hb
        rw [h] at hy
        rcases nil_or_last rest with e | ⟨c, z, e⟩
        · rw [h, e, bytes_eq_charge] at hb
          simp only [charge] at hb
          omega
        · have hyz : y = z := by
            rw [e, ← List.cons_append, List.getLast?_concat] at hy
            exact (Option.some.inj hy).symm
          have hz : z ∈ rest := by rw [e]; simp
          have hne : x.1 ≠ y.1 := fun e' => hn (by rw [e', hyz]; exact List.mem_map_of_mem (f := Prod.fst) hz)
          refine ih (leave t y) (without rest y.1) ?_ ?_
          · show without t.trial y.1 = _
            rw [h]
            unfold without
            rw [List.filter_cons_of_pos (by simpa using hne)]
          · intro hm
            obtain ⟨w, hw, e'⟩ := List.mem_map.1 hm
            exact hn (by rw [← e']; exact List.mem_map_of_mem (f := Prod.fst) (mem_without.1 hw).1)
      · exact hin
    · exact hin

/-- A new object that fits into half of the cache is stored. -/
theorem insert_stores {t : St W} {r : Req} (hle : r.size ≤ cs / 2) (hn : r.id ∉ t.contents.ids) : (r.id, r.size % u32) ∈ (Spec.Cacheus.insert cs t r).contents := by
  have hmod := Nat.mod_le r.size u32
  unfold Spec.Cacheus.insert
  rw [if_neg (by omega)]
  simp only
  show _ ∈ (spill _ _ _).contents
  have hn' : r.id ∉ t.keep.ids ∧ r.id ∉ t.trial.ids := by
    unfold Spec.Cacheus.St.contents at hn
    rw [ids_append, List.mem_append, not_or] at hn
    exact hn
  split
  · refine spill_keep _ _ _ List.mem_cons_self ?_
    intro hm
    have hp := demote_perm (cs / 2) r.size t.keep.length t.keep t.trial
    have := (hp.map Prod.fst).mem_iff.1 (show r.id ∈ _ by rw [List.map_append]; exact List.mem_append_right _ hm)
    exact hn this
  · exact spill_front (cs / 2) (by show r.size % u32 ≤ _; omega) _ _ _ rfl hn'.2

/-! ### the objects that have left are few -/

theorem forget_lt {C : Nat} (hC : 0 < C) : ∀ (n : Nat) (l : Contents), l.length ≤ n → bytes 0 (forget C n l) < C := by
  intro n
  induction n with
  | zero =>
    intro l h
    have : l = [] := List.length_eq_zero_iff.1 (by omega)
    subst this
    exact hC
  | succ n ih =>
    intro l h
    unfold forget
    split
    · exact ih _ (by rw [List.length_dropLast]; omega)
    · omega

theorem limitPast_lt {C : Nat} (hC : 0 < C) (t : St W) : bytes 0 (limitPast C t).past < C := forget_lt hC _ _ (Nat.le_refl _)

theorem adapt_past (K : Weighing W) (C : Nat) (t : St W) : (Spec.Cacheus.adapt K C t).past = t.past := by
  unfold Spec.Cacheus.adapt
  split
  · split
    · rfl
    · split
      · rfl
      · split <;> rfl
  · rfl

theorem hit_past (C : Nat) (t : St W) (id : ObjId) : (Spec.Cacheus.hit C t id).past = t.past := by
  unfold Spec.Cacheus.hit
  simp only
  split <;> rfl

theorem evict_past {K : Weighing W} {C : Nat} (hC : 0 < C) {t : St W} (h : bytes 0 t.past < C) : bytes 0 (Spec.Cacheus.evict K C t).past < C := by
  unfold Spec.Cacheus.evict
  simp only
  split
  · split
    · exact limitPast_lt hC _
    · split
      · exact limitPast_lt hC _
      · exact limitPast_lt hC _
  · exact h

theorem room_past {K : Weighing W} {C : Nat} (hC : 0 < C) (need : Nat) : ∀ (n : Nat) (t : St W), bytes 0 t.past < C → bytes 0 (Spec.Cacheus.room K C need n t).past < C := by
  intro n
  induction n with
  | zero => intro t h; exact h
  | succ n ih =>
    intro t h
    unfold Spec.Cacheus.room
    split
    · exact h
    · exact ih _ (evict_past hC h)

theorem insert_past {C : Nat} (hC : 0 < C) {t : St W} (h : bytes 0 t.past < C) (r : Req) : bytes 0 (Spec.Cacheus.insert C t r).past < C := by
  unfold Spec.Cacheus.insert
  split
  · exact h
  · exact limitPast_lt hC _

theorem step_past {K : Weighing W} {C : Nat} (hC : 0 < C) {t : St W} (h : bytes 0 t.past < C) (op : Op) : bytes 0 (Spec.Cacheus.step K C t op).2.past < C := by
  cases op with
  | get r =>
    show bytes 0 (Spec.Cacheus.get K C t r).2.past < C
    unfold Spec.Cacheus.get Spec.Cacheus.look
    simp only
    by_cases hm : r.id ∈ ({ t with now := t.now + 1 } : St W).contents.ids
    · rw [if_pos hm]
      simp only [if_true]
      rw [adapt_past, hit_past]; exact h
    · rw [if_neg hm]
      simp only [Bool.false_eq_true, if_false]
      have h1 : bytes 0 (Spec.Cacheus.regret K ({ t with now := t.now + 1 } : St W) r.id).past < C := h
      generalize Spec.Cacheus.regret K ({ t with now := t.now + 1 } : St W) r.id = t1 at h1 ⊢
      have h2 : bytes 0 ({ t1 with adm := (t1.adm.admit r).2 } : St W).past < C := h1
      generalize ({ t1 with adm := (t1.adm.admit r).2 } : St W) = t2 at h2 ⊢
      have h3 := room_past (K := K) hC r.size t2.contents.length t2 h2
      split
      · rw [adapt_past]; exact insert_past hC h3 r
      · rw [adapt_past]; exact h2
  | find r u =>
    show bytes 0 (Spec.Cacheus.St.past (if u then Spec.Cacheus.look K C t r else _).2) < C
    cases u with
    | false => exact h
    | true =>
      simp only [if_true]
      unfold Spec.Cacheus.look
      split
      · rw [hit_past]; exact h
      · exact h
  | remove id =>
    unfold Spec.Cacheus.step
    simp only
    split
    · exact limitPast_lt hC _
    · exact h
  | evict r =>
    unfold Spec.Cacheus.step
    simp only
    split
    · exact h
    · exact evict_past hC h
  | insert r =>
    unfold Spec.Cacheus.step
    simp only
    split
    · exact insert_past hC h r
    · exact h

theorem run_past {K : Weighing W} {C : Nat} (hC : 0 < C) : ∀ (ops : List Op) (t : St W), bytes 0 t.past < C → bytes 0 (Spec.Cacheus.run K C t ops).2.past < C := by
  intro ops
  induction ops with
  | nil => intro t h; exact h
  | cons op ops ih => intro t h; exact ih _ (step_past hC h op)

/-! ### the count of adaptations without progress -/

/-- while the count is undefined the learning rate counts as moved -/
def Counted (K : Weighing W) (t : St W) : Prop := t.dull = none → K.moved t.w = true

theorem adapt_counted {K : Weighing W} {C : Nat} {t : St W} (h : Counted K t) : Counted K (Spec.Cacheus.adapt K C t) := by
  unfold Spec.Cacheus.adapt
  split
  · by_cases hm : K.moved t.w = true
    · rw [if_pos hm]; intro hd; cases hd
    · rw [if_neg hm]
      have hs : t.dull ≠ none := fun e => hm (h e)
      split
      · intro hd; cases hd
      · split
        · intro hd; cases hd
        · intro hd; exact absurd hd hs
  · exact h

theorem hit_counted {K : Weighing W} {C : Nat} {t : St W} (h : Counted K t) (id : ObjId) : Counted K (Spec.Cacheus.hit C t id) := by
  unfold Spec.Cacheus.hit
  simp only
  split <;> exact h

theorem evict_counted {K : Weighing W} {C : Nat} {t : St W} (h : Counted K t) : Counted K (Spec.Cacheus.evict K C t) := by
  unfold Spec.Cacheus.evict
  simp only
  split
  · split
    · exact h
    · split <;> exact h
  · exact h

theorem room_counted {K : Weighing W} {C : Nat} (need : Nat) : ∀ (n : Nat) (t : St W), Counted K t → Counted K (Spec.Cacheus.room K C need n t) := by
  intro n
  induction n with
  | zero => intro t h; exact h
  | succ n ih =>
    intro t h
    unfold Spec.Cacheus.room
    split
    · exact h
    · exact ih _ (evict_counted h)

theorem insert_counted {C : Nat} {t : St A.W} (h : Counted (weigh A) t) (r : Req) : Counted (weigh A) (Spec.Cacheus.insert C t r) := by
  obtain ⟨_, _, h3, _, h5, _⟩ := Sim.insert_frame C t r
  unfold Counted
  rw [h3, h5]; exact h

/-- the weight updates after a miss leave the learning rate alone -/
def LeavesRate (A : Arith) : Prop := ∀ w, A.moved (A.lruGhost w) = A.moved w ∧ A.moved (A.lfuGhost w) = A.moved w ∧ A.moved (A.noGhost w) = A.moved w

theorem regret_counted (hA : LeavesRate A) {t : St A.W} (h : Counted (weigh A) t) (id : ObjId) : Counted (weigh A) (Spec.Cacheus.regret (weigh A) t id) := by
  intro hd
  have := h hd
  unfold Spec.Cacheus.regret
  simp only
  have hA := hA t.w
  split
  · exact hA.1.trans this
  · split
    · exact hA.2.1.trans this
    · exact hA.2.2.trans this

theorem step_counted (hA : LeavesRate A) {C : Nat} {t : St A.W} (h : Counted (weigh A) t) (op : Op) : Counted (weigh A) (Spec.Cacheus.step (weigh A) C t op).2 := by
  cases op with
  | get r =>
    show Counted (weigh A) (Spec.Cacheus.get (weigh A) C t r).2
    unfold Spec.Cacheus.get Spec.Cacheus.look
    simp only
    by_cases hm : r.id ∈ ({ t with now := t.now + 1 } : St A.W).contents.ids
    · rw [if_pos hm]
      simp only [if_true]
      exact adapt_counted (hit_counted (t := { t with now := t.now + 1 }) h _)
    · rw [if_neg hm]
      simp only [Bool.false_eq_true, if_false]
      have h1 := regret_counted hA (t := { t with now := t.now + 1 }) h r.id
      generalize Spec.Cacheus.regret (weigh A) ({ t with now := t.now + 1 } : St A.W) r.id = t1 at h1 ⊢
      have h2 : Counted (weigh A) ({ t1 with adm := (t1.adm.admit r).2 } : St A.W) := h1
      generalize ({ t1 with adm := (t1.adm.admit r).2 } : St A.W) = t2 at h2 ⊢
      have h3 := room_counted (K := weigh A) (C := C) r.size t2.contents.length t2 h2
      split
      · exact adapt_counted (insert_counted h3 r)
      · exact adapt_counted h2
  | find r u =>
    show Counted (weigh A) (if u then Spec.Cacheus.look (weigh A) C t r else _).2
    cases u with
    | false => exact h
    | true =>
      simp only [if_true]
      unfold Spec.Cacheus.look
      split
      · exact hit_counted h _
      · exact regret_counted hA h _
  | remove id =>
    unfold Spec.Cacheus.step
    simp only
    split
    · exact h
    · exact h
  | evict r =>
    unfold Spec.Cacheus.step
    simp only
    split
    · exact h
    · exact evict_counted h
  | insert r =>
    unfold Spec.Cacheus.step
    simp only
    split
    · exact insert_counted h r
    · exact h

theorem run_counted (hA : LeavesRate A) {C : Nat} : ∀ (ops : List Op) (t : St A.W), Counted (weigh A) t → Counted (weigh A) (Spec.Cacheus.run (weigh A) C t ops).2 := by
  intro ops
  induction ops with
  | nil => intro t h; exact h
  | cons op ops ih => intro t h; exact ih _ (step_counted hA h op)

/-! ### single calls -/

variable {s : State A} {t : St A.W}

theorem spec_hit (hm : r.id ∈ t.contents.ids) : (Spec.Cacheus.get (weigh A) cs t r).1 = true ∧ (Spec.Cacheus.get (weigh A) cs t r).2.contents.Perm t.contents := by
  unfold Spec.Cacheus.get Spec.Cacheus.look
  simp only
  rw [if_pos (show r.id ∈ ({ t with now := t.now + 1 } : St A.W).contents.ids from hm)]
  simp only [if_true]
  exact ⟨trivial, by rw [adapt_contents]; exact hit_perm cs _ r.id⟩

/-- An admitted object that fits into half of the cache is stored. -/
theorem spec_stores (h : Sim cs false s t) (hcs : 0 < cs) {r : Req} (hm : r.id ∉ t.contents.ids) (ha : (t.adm.admit r).1 = true) (hle : r.size ≤ cs / 2) :
    (Spec.Cacheus.get (weigh A) cs t r).1 = false ∧ (r.id, r.size % u32) ∈ (Spec.Cacheus.get (weigh A) cs t r).2.contents := by
  obtain ⟨s1, _, _, h2⟩ := h.bump.look hcs r
  have h2 := h2 hm
  obtain ⟨c1, c2⟩ := h2.canInsert r
  have hadm : ((Spec.Cacheus.regret (weigh A) ({ t with now := t.now + 1 } : St A.W) r.id).adm.admit r).1 = true ∧ r.size ≤ cs := ⟨ha, by omega⟩
  rw [decide_eq_true hadm] at c1
  rw [c1] at c2
  simp only [Bool.and_true, Bool.not_true, Bool.and_false, Bool.false_eq_true, if_false] at c2
  obtain ⟨_, _, _, h5, _⟩ := Sim.loop hcs r hadm.2 _ _ _ c2 (Nat.le_refl _)
  unfold Spec.Cacheus.get Spec.Cacheus.look
  simp only
  rw [if_neg (show r.id ∉ ({ t with now := t.now + 1 } : St A.W).contents.ids from hm)]
  simp only [Bool.false_eq_true, if_false]
  rw [if_pos hadm]
  simp only
  rw [adapt_contents]
  exact ⟨trivial, insert_stores hle (notMem_ids_of_subperm h5.subperm hm)⟩

/-- A request that is refused leaves both experts alone. -/
theorem reject (h : Sim cs false s t) (hcs : 0 < cs) {r : Req} (hn : r.id ∉ t.contents.ids) (ha : admitsBase s.base r = false) :
    ∃ s', (algo A).get s r = .ok (false, s') ∧ (s'.lru, s'.lfu) = (s.lru, s.lfu) := by
  obtain ⟨R, SR, H, hr⟩ := h.rel
  obtain ⟨g1, g2⟩ := hr.find_miss (r := r) (fun hh => hn ((hr.mem_contents r.id).2 hh))
  obtain ⟨x1, k1, k2⟩ := h.gl.remove r.id
  obtain ⟨x2, k3, k4⟩ := h.gf.remove r.id
  have hz : ¬ (((algo A).bump s).inGet = true ∧ ((algo A).bump s).base.cacheSize = 0) := by
    rintro ⟨_, e⟩
    have : s.base.cacheSize = 0 := e
    rw [h.csz] at this
    omega
  have hf : (algo A).find ((algo A).bump s) r true = .ok (false, { updateWeight ((algo A).bump s) r with lruG := x1, lfuG := x2 }) := by
    show find ((algo A).bump s) r true = _
    unfold find
    rw [if_neg hz]
    have e : find0 ((algo A).bump s) r true = .ok (false, { updateWeight ((algo A).bump s) r with lruG := x1, lfuG := x2 }) := by
      unfold find0
      rw [show ((algo A).bump s).lru = s.lru from rfl, show ((algo A).bump s).lfu = s.lfu from rfl, g1, Res.bind_ok, g2, Res.bind_ok]
      simp only [Bool.true_eq_false, if_false, Bool.false_eq_true]
      unfold history
      rw [show ({ (algo A).bump s with lru := s.lru, lfu := s.lfu } : State A).lruG = s.lruG from rfl, show ({ (algo A).bump s with lru := s.lru, lfu := s.lfu } : State A).lfuG = s.lfuG from rfl,
        k1, Res.bind_ok, k3, Res.bind_ok]
      rfl
    rw [e, Res.bind_ok]
    rfl
  generalize hs1 : ({ updateWeight ((algo A).bump s) r with lruG := x1, lfuG := x2 } : State A) = s1 at hf
  have e1 : s1.lru = s.lru ∧ s1.lfu = s.lfu ∧ s1.base = s.base.bump := by rw [← hs1]; exact ⟨rfl, rfl, rfl⟩
  have hfin : ∀ x : State A, (finish x).lru = x.lru ∧ (finish x).lfu = x.lfu := by
    intro x
    unfold finish
    split
    · unfold endGet
      split
      · unfold updateLr
        simp only
        split
        · exact ⟨rfl, rfl⟩
        · split
          · exact ⟨rfl, rfl⟩
          · split <;> exact ⟨rfl, rfl⟩
      · exact ⟨rfl, rfl⟩
    · exact ⟨rfl, rfl⟩
  have hc0 : (canInsert0 s1 r).1 = false := by
    unfold canInsert0
    rw [canInsertDefault_eq]
    show admitsBase s1.base r = false
    rw [e1.2.2]; exact ha
  have hc : (algo A).canInsert s1 r = (false, finish (canInsert0 s1 r).2) := by
    show canInsert s1 r = _
    unfold canInsert
    rw [hc0]
    simp
  refine ⟨_, get_reject hf hc, ?_⟩
  rw [(hfin _).1, (hfin _).2]
  show (s1.lru, s1.lfu) = _
  rw [e1.1, e1.2.1]

end Verif.Cacheus
