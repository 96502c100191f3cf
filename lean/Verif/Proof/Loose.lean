import Verif.Algo.S3FIFOd
import Verif.Proof.MainCache
/-!
# Caches whose size is changed by others

Helper file.  `Loose` lists what a cache does when somebody assigns to its `cache_size`, so that it may hold more than that.
-/

namespace Verif
open Spec
variable {σ μ τ : Type}

structure Loose (P : S3FIFOd.Part τ) (cached : τ → Contents) (Inv : τ → Prop) : Prop where
  nodup : ∀ {s}, Inv s → (cached s).ids.Nodup
  occ : ∀ {s}, Inv s → P.algo.occ s = (charge 0 (cached s) : Nat)
  nObj : ∀ {s}, Inv s → P.algo.nObj s = ((cached s).length : Nat)
  md : ∀ {s}, Inv s → P.algo.md s = 0
  fuel : ∀ {s}, Inv s → (cached s).length ≤ P.algo.fuel s
  small : ∀ {s}, Inv s → ∀ x ∈ cached s, x.2 < u32
  bump : ∀ {s}, Inv s → Inv (P.algo.bump s) ∧ cached (P.algo.bump s) = cached s ∧ P.algo.cacheSize (P.algo.bump s) = P.algo.cacheSize s
  can : ∀ {s} (r), Inv s → P.algo.canInsert s r = (decide (r.size ≤ P.algo.cacheSize s), s)
  findF : ∀ {s} (r), Inv s → P.algo.find s r false = .ok (decide (r.id ∈ (cached s).ids), s)
  findT : ∀ {s} (r), Inv s → ∃ s', P.algo.find s r true = .ok (decide (r.id ∈ (cached s).ids), s') ∧ Inv s' ∧ (cached s').Perm (cached s) ∧
    P.algo.cacheSize s' = P.algo.cacheSize s
  insert : ∀ {s} (r : Req), Inv s → r.id ∉ (cached s).ids → ∃ s', P.algo.insert s r = .ok s' ∧ Inv s' ∧
    (cached s').Perm ((r.id, r.size % u32) :: cached s) ∧ P.zero s' r.id = true ∧ P.algo.cacheSize s' = P.algo.cacheSize s
  evict : ∀ {s} (r), Inv s → cached s ≠ [] → ∃ s' v, P.victim s = some v ∧ P.algo.evict s r = .ok s' ∧ Inv s' ∧
    (cached s).Perm ((v.id, v.size) :: cached s') ∧ P.algo.cacheSize s' = P.algo.cacheSize s
  remove : ∀ {s} (id), Inv s → ∃ s', P.algo.remove s id = .ok (decide (id ∈ (cached s).ids), s') ∧ Inv s' ∧
    (cached s').Perm ((cached s).filter (fun x => x.1 ≠ id)) ∧ P.algo.cacheSize s' = P.algo.cacheSize s
  resize : ∀ {s} (n), Inv s → Inv (P.resize s n) ∧ cached (P.resize s n) = cached s ∧ P.algo.cacheSize (P.resize s n) = n

section
variable {P : S3FIFOd.Part τ} {cached : τ → Contents} {Inv : τ → Prop}

theorem Loose.mustEvict (L : Loose P cached Inv) {s : τ} (h : Inv s) (r : Req) :
    P.algo.mustEvict s r = decide (charge 0 (cached s) + r.size > P.algo.cacheSize s) := by
  unfold Algo.mustEvict
  rw [L.occ h, L.md h, decide_eq_decide]
  omega

/-- the eviction loop of `get` -/
theorem Loose.loop (L : Loose P cached Inv) (r : Req) : ∀ n s, Inv s → r.size ≤ P.algo.cacheSize s → (cached s).length ≤ n →
    ∃ s' vs, P.algo.evictLoop r n s = .ok s' ∧ Inv s' ∧ P.algo.cacheSize s' = P.algo.cacheSize s ∧ (cached s).Perm (vs ++ cached s') ∧
      charge 0 (cached s') + r.size ≤ P.algo.cacheSize s ∧
      ∀ us v, vs = us ++ [v] → charge 0 (v :: cached s') + r.size > P.algo.cacheSize s := by
  intro n
  induction n with
  | zero =>
    intro s h hsz hl
    have hnil : cached s = [] := List.length_eq_zero_iff.1 (by omega)
    have hm : P.algo.mustEvict s r = false := by
      rw [L.mustEvict h, hnil]; simp [charge]; exact hsz
    exact ⟨s, [], by simp [Algo.evictLoop, hm], h, rfl, by simp, by rw [hnil]; simpa [charge] using hsz, by simp⟩
  | succ n ih =>
    intro s h hsz hl
    have hme := L.mustEvict h r
    by_cases hgt : charge 0 (cached s) + r.size > P.algo.cacheSize s
    · rw [decide_eq_true hgt] at hme
      have hne : cached s ≠ [] := by
        intro e; rw [e] at hgt; simp [charge] at hgt; omega
      obtain ⟨s1, v, _, h2, h3, h4, h5⟩ := L.evict r h hne
      have hlen := h4.length_eq
      rw [List.length_cons] at hlen
      obtain ⟨s', vs, k1, k2, k3, k4, k5, k6⟩ := ih s1 h3 (by rw [h5]; exact hsz) (by omega)
      refine ⟨s', (v.id, v.size) :: vs, by simp [Algo.evictLoop, hme, h2, k1], k2, k3.trans h5, h4.trans (k4.cons _), by rw [← h5]; exact k5, ?_⟩
      intro us w e
      rcases List.eq_nil_or_concat vs with rfl | ⟨ws, x, rfl⟩
      · cases us with
        | nil =>
          cases e
          have e1 := charge_perm (md := 0) h4
          have e2 := charge_perm (md := 0) k4
          rw [List.nil_append] at e2
          simp only [charge] at e1 ⊢
          omega
        | cons a us => simp at e
      · rw [List.concat_eq_append] at e k6
        rw [← List.cons_append] at e
        obtain ⟨_, e2⟩ := List.append_inj' e rfl
        cases e2
        have := k6 ws w rfl
        rw [h5] at this
        exact this
    · rw [decide_eq_false hgt] at hme
      exact ⟨s, [], by simp [Algo.evictLoop, hme], h, rfl, by simp, by omega, by simp⟩

/-- `get` of an object that is not there -/
theorem Loose.getMiss (L : Loose P cached Inv) {s : τ} (h : Inv s) (r : Req) (hn : r.id ∉ (cached s).ids) :
    (¬ r.size ≤ P.algo.cacheSize s ∧ ∃ s', P.algo.get s r = .ok (false, s') ∧ Inv s' ∧ (cached s').Perm (cached s) ∧
      P.algo.cacheSize s' = P.algo.cacheSize s) ∨
    (r.size ≤ P.algo.cacheSize s ∧ ∃ s' vs kept, P.algo.get s r = .ok (false, s') ∧ Inv s' ∧ (cached s).Perm (vs ++ kept) ∧
      (cached s').Perm ((r.id, r.size % u32) :: kept) ∧ P.zero s' r.id = true ∧ P.algo.cacheSize s' = P.algo.cacheSize s ∧
      ∀ us v, vs = us ++ [v] → charge 0 (v :: kept) + r.size > P.algo.cacheSize s) := by
  obtain ⟨hb, hbc, hbs⟩ := L.bump h
  obtain ⟨s1, f1, f2, f3, f4⟩ := L.findT r hb
  rw [hbc, decide_eq_false hn] at f1
  rw [hbc] at f3
  have hc := L.can r f2
  have hsz : P.algo.cacheSize s1 = P.algo.cacheSize s := f4.trans hbs
  rw [hsz] at hc
  by_cases hle : r.size ≤ P.algo.cacheSize s
  · right
    rw [decide_eq_true hle] at hc
    obtain ⟨s2, vs, k1, k2, k3, k4, _, k6⟩ := L.loop r (P.algo.fuel s1) s1 f2 (by rw [hsz]; exact hle) (L.fuel f2)
    have hn2 : r.id ∉ (cached s2).ids := by
      intro hm
      apply hn
      have : r.id ∈ (vs ++ cached s2).map Prod.fst := by
        rw [List.map_append]; exact List.mem_append_right _ hm
      exact (f3.map Prod.fst).subset ((k4.symm.map Prod.fst).subset this)
    obtain ⟨s3, i1, i2, i3, i4, i5⟩ := L.insert r k2 hn2
    refine ⟨hle, s3, vs, cached s2, get_accept f1 hc k1 i1, i2, f3.symm.trans k4, i3, i4, i5.trans (k3.trans hsz), ?_⟩
    intro us v e
    have := k6 us v e
    rw [hsz] at this
    exact this
  · left
    rw [decide_eq_false hle] at hc
    exact ⟨hle, s1, get_reject f1 hc, f2, f3, hsz⟩

/-- `get` of any object -/
theorem Loose.get (L : Loose P cached Inv) {s : τ} (h : Inv s) (r : Req) :
    ∃ b s', P.algo.get s r = .ok (b, s') ∧ Inv s' ∧ P.algo.cacheSize s' = P.algo.cacheSize s ∧
      (∀ x ∈ cached s', x = (r.id, r.size % u32) ∨ x ∈ cached s) ∧ (r.size ≤ P.algo.cacheSize s → r.id ∈ (cached s').ids) := by
  by_cases hin : r.id ∈ (cached s).ids
  · obtain ⟨hb, hbc, hbs⟩ := L.bump h
    obtain ⟨s1, f1, f2, f3, f4⟩ := L.findT r hb
    rw [hbc, decide_eq_true hin] at f1
    rw [hbc] at f3
    exact ⟨true, s1, get_hit f1, f2, f4.trans hbs, fun x hx => Or.inr (f3.subset hx), fun _ => (f3.symm.map Prod.fst).subset hin⟩
  · rcases L.getMiss h r hin with ⟨hle, s', h1, h2, h3, h4⟩ | ⟨hle, s', vs, kept, h1, h2, h3, h4, _, h6, _⟩
    · exact ⟨false, s', h1, h2, h4, fun x hx => Or.inr (h3.subset hx), fun hx => absurd hx hle⟩
    · refine ⟨false, s', h1, h2, h6, fun x hx => ?_, fun _ => (h4.symm.map Prod.fst).subset (by simp)⟩
      rcases List.mem_cons.1 (h4.subset hx) with rfl | hx
      · exact Or.inl rfl
      · exact Or.inr (h3.symm.subset (List.mem_append_right _ hx))

end

/-! ### Caches with one table -/

section
variable {A : Algo σ} {base : σ → Base μ} {setBase : σ → Base μ → σ} {Inv : Nat → σ → Prop} {D : Discipline τ} {view : σ → τ}

/-- assignment to `cache_size` -/
def rz (base : σ → Base μ) (setBase : σ → Base μ → σ) (s : σ) (n : Nat) : σ := setBase s { base s with cacheSize := n }

/-- What the functions of such a cache have in common: they do not look at `cache_size`. -/
structure Blind (A : Algo σ) (base : σ → Base μ) (setBase : σ → Base μ → σ) (toEvict : σ → Option ObjId) : Prop where
  set_set : ∀ s b b', setBase (setBase s b) b' = setBase s b'
  set_base : ∀ s, setBase s (base s) = s
  base_set : ∀ s b, base (setBase s b) = b
  find : ∀ s r u n, A.find (rz base setBase s n) r u = (A.find s r u).map (fun p => (p.1, rz base setBase p.2 n))
  insert : ∀ s r n, A.insert (rz base setBase s n) r = (A.insert s r).map (fun x => rz base setBase x n)
  evict : ∀ s r n, A.evict (rz base setBase s n) r = (A.evict s r).map (fun x => rz base setBase x n)
  remove : ∀ s id n, A.remove (rz base setBase s n) id = (A.remove s id).map (fun p => (p.1, rz base setBase p.2 n))
  toEvict : ∀ s n, toEvict (rz base setBase s n) = toEvict s

variable {toEvict : σ → Option ObjId}

theorem Blind.rz_rz (B : Blind A base setBase toEvict) (s : σ) (n m : Nat) : rz base setBase (rz base setBase s n) m = rz base setBase s m := by
  unfold rz
  rw [B.set_set, B.base_set]

theorem Blind.rz_self (B : Blind A base setBase toEvict) (s : σ) : rz base setBase s (base s).cacheSize = s := B.set_base s

theorem Blind.base_rz (B : Blind A base setBase toEvict) (s : σ) (n : Nat) : base (rz base setBase s n) = { base s with cacheSize := n } := B.base_set _ _

theorem Blind.pull (B : Blind A base setBase toEvict) {f : σ → Res σ} (hf : ∀ s n, f (rz base setBase s n) = (f s).map (fun x => rz base setBase x n))
    {s t : σ} {n : Nat} (h : f (rz base setBase s n) = .ok t) :
    ∃ s', f s = .ok s' ∧ rz base setBase s' n = t ∧ (base s').cacheSize = (base s).cacheSize := by
  rw [hf] at h
  cases hs : f s with
  | error e => rw [hs] at h; cases h
  | ok s' =>
    rw [hs] at h
    refine ⟨s', rfl, by cases h; rfl, ?_⟩
    have h2 := hf s (base s).cacheSize
    rw [B.rz_self, hs] at h2
    have h3 : s' = rz base setBase s' (base s).cacheSize := by
      injection h2
    rw [h3, B.base_rz]

theorem Blind.pull2 (B : Blind A base setBase toEvict) {f : σ → Res (Bool × σ)}
    (hf : ∀ s n, f (rz base setBase s n) = (f s).map (fun p => (p.1, rz base setBase p.2 n)))
    {s t : σ} {n : Nat} {b : Bool} (h : f (rz base setBase s n) = .ok (b, t)) :
    ∃ s', f s = .ok (b, s') ∧ rz base setBase s' n = t ∧ (base s').cacheSize = (base s).cacheSize := by
  rw [hf] at h
  cases hs : f s with
  | error e => rw [hs] at h; cases h
  | ok p =>
    obtain ⟨b', s'⟩ := p
    rw [hs] at h
    have h2 := hf s (base s).cacheSize
    rw [B.rz_self, hs] at h2
    have h3 : s' = rz base setBase s' (base s).cacheSize := by
      injection h2 with h2
      injection h2
    refine ⟨s', by cases h; rfl, by cases h; rfl, ?_⟩
    rw [h3, B.base_rz]

/-- the invariant of such a cache: it would be in order if it were large enough -/
def Slack (base : σ → Base μ) (setBase : σ → Base μ → σ) (Inv : Nat → σ → Prop) (s : σ) : Prop :=
  (base s).adm = .none ∧ ∃ n, Inv n (rz base setBase s n)

theorem Loose.ofSim (S : ∀ n, SBSpec A base setBase (Inv n) n 0) (M : ∀ n, Sim A base setBase (Inv n) n 0 D view)
    (B : Blind A base setBase toEvict) (mono : ∀ {s n m}, Inv n s → n ≤ m → Inv m (rz base setBase s m))
    (te : ∀ {s n}, Inv n s → (base s).tbl ≠ [] → ∀ r, ∃ id k s', toEvict s = some id ∧ A.evict s r = .ok s' ∧
      (base s).cached.Perm ((id, k) :: (base s').cached))
    (hz : ∀ {s s'} (r : Req), A.insert s r = .ok s' → QDLP.zeroFreq (base s') r.id = true) :
    Loose ⟨A, fun s => S3FIFOd.named (base s) (toEvict s), fun s => QDLP.zeroFreq (base s), rz base setBase⟩
      (fun s => (base s).cached) (Slack base setBase Inv) := by
  have C : ∀ n, SBStrong A base (Inv n) n 0 (fun _ => ()) := fun n => (S n).strong (fun _ => ()) (fun _ _ _ => rfl)
  have hc : ∀ s n, (base (rz base setBase s n)).cached = (base s).cached := fun s n => by rw [B.base_rz]; rfl
  have hl : ∀ s n id, (base (rz base setBase s n)).lookup id = (base s).lookup id := fun s n id => by rw [B.base_rz]; rfl
  have ha : ∀ s n, (base (rz base setBase s n)).adm = (base s).adm := fun s n => by rw [B.base_rz]
  have hcs : ∀ s, A.cacheSize s = (base s).cacheSize := (S 0).csz
  refine ⟨?_, ?_, ?_, ?_, ?_, ?_, ?_, ?_, ?_, ?_, ?_, ?_, ?_, ?_⟩
  · rintro s ⟨_, n, h⟩
    have := (C n).nodup h
    rwa [hc] at this
  · rintro s ⟨_, n, h⟩
    have := (C n).occ h
    rw [hc, (S n).occ, B.base_rz] at this
    rw [show A.occ s = (base s).occ from (S n).occ s]
    exact this
  · rintro s ⟨_, n, h⟩
    have := (C n).nObj h
    rw [hc, (S n).nObj, B.base_rz] at this
    rw [show A.nObj s = (base s).nObj from (S n).nObj s]
    exact this
  · rintro s ⟨_, n, h⟩
    have := ((S n).inv h).md
    rw [B.base_rz] at this
    rw [show A.md s = (base s).objMd from (S n).mdz s]
    exact this
  · rintro s ⟨_, n, h⟩
    have := (S n).fuel s
    simpa [Base.cached] using this
  · rintro s ⟨_, n, h⟩ x hx
    have h1 := ((S n).inv h).inv.small
    rw [B.base_rz] at h1
    obtain ⟨o, ho, rfl⟩ := List.mem_map.1 hx
    have := h1 o ho
    simp only at this ⊢
    omega
  · rintro s ⟨hadm, n, h⟩
    show Slack _ _ _ (A.bump s) ∧ (base (A.bump s)).cached = _ ∧ A.cacheSize (A.bump s) = A.cacheSize s
    rw [hcs, hcs, (S n).bumpEq, B.base_set]
    refine ⟨⟨by rw [B.base_set]; exact hadm, n, ?_⟩, rfl, rfl⟩
    have := (S n).frame ((base s).nReq + 1) .none h
    have e : rz base setBase (setBase s (base s).bump) n = setBase (rz base setBase s n) { base (rz base setBase s n) with nReq := (base s).nReq + 1, adm := .none } := by
      unfold rz
      rw [B.set_set, B.set_set, B.base_set, B.base_set, ← hadm]
      rfl
    rw [e]
    exact this
  · rintro s r ⟨hadm, n, h⟩
    show A.canInsert s r = (decide (r.size ≤ A.cacheSize s), s)
    have hmd := ((S n).inv h).md
    rw [B.base_rz] at hmd
    have hmd' : (base s).objMd = 0 := hmd
    rw [(S n).canEq, hcs]
    have e2 : ((base s).canInsertDefault r).2 = base s := by
      unfold Base.canInsertDefault
      simp only [hadm, Adm.admit]
      rw [if_neg (by simp)]
      split <;> rw [← hadm]
    have e1 : ((base s).canInsertDefault r).1 = decide (r.size ≤ (base s).cacheSize) := by
      unfold Base.canInsertDefault
      simp only [hadm, Adm.admit, hmd', Nat.add_zero]
      rw [if_neg (by simp)]
      split
      · rename_i hgt; simp; omega
      · rename_i hgt; simp; omega
    rw [e1, e2, B.set_base]
  · rintro s r ⟨hadm, n, h⟩
    have h1 := (C n).findF (Or.inl rfl) r h
    rw [hc] at h1
    obtain ⟨s', h2, h3, h4⟩ := B.pull2 (f := fun s => A.find s r false) (fun s n => B.find s r false n) h1
    have e : s' = s := by
      have := congrArg (fun x => rz base setBase x (base s).cacheSize) h3
      simp only [B.rz_rz, B.rz_self] at this
      rw [← h4, B.rz_self] at this
      exact this
    rw [e] at h2
    exact h2
  · rintro s r ⟨hadm, n, h⟩
    show ∃ s', A.find s r true = _ ∧ _ ∧ _ ∧ A.cacheSize s' = A.cacheSize s
    simp only [hcs]
    cases hlk : (base s).lookup r.id with
    | none =>
      have h1 := (S n).findMiss r h (by rw [hl]; exact hlk)
      obtain ⟨s', h2, h3, h4⟩ := B.pull2 (f := fun s => A.find s r true) (fun s n => B.find s r true n) h1
      refine ⟨s', by rw [h2, decide_eq_false (lookup_none_iff'.1 hlk)], ⟨by rw [← ha s' n, h3, ha]; exact hadm, n, by rw [h3]; exact h⟩, ?_, h4⟩
      rw [← hc s' n, h3, hc]
    | some o =>
      have hlk' : (base (rz base setBase s n)).lookup r.id = some o := by rw [hl]; exact hlk
      obtain ⟨t, h1, ht, hp⟩ := (S n).findHit r o h hlk'
      have had := ((M n).findHit r o h hlk' h1).2
      obtain ⟨s', h2, h3, h4⟩ := B.pull2 (f := fun s => A.find s r true) (fun s n => B.find s r true n) h1
      have hin : r.id ∈ (base s).cached.ids := by
        have : ((base s).lookup r.id).isSome = true := by rw [hlk]; rfl
        rw [lookup_isSome_iff] at this
        simpa using this
      refine ⟨s', by rw [h2, decide_eq_true hin], ⟨by rw [← ha s' n, h3, had, ha]; exact hadm, n, by rw [h3]; exact ht⟩, ?_, h4⟩
      rw [← hc s' n, h3, ← hc s n]
      exact hp
  · rintro s r ⟨hadm, n, h⟩ hn
    show ∃ s', A.insert s r = _ ∧ _ ∧ _ ∧ _ ∧ A.cacheSize s' = A.cacheSize s
    simp only [hcs]
    have hm := mono h (Nat.le_add_right n r.size)
    rw [B.rz_rz] at hm
    have hlk : (base (rz base setBase s (n + r.size))).lookup r.id = none := by rw [hl]; exact lookup_none_iff'.2 hn
    have hroom : (base (rz base setBase s (n + r.size))).occ + r.size + (0 : Nat) ≤ ((n + r.size : Nat) : Int) := by
      have h1 := ((S n).inv h).inv.cap
      rw [((S n).inv h).cs, B.base_rz] at h1
      rw [B.base_rz]
      simp only at h1 ⊢
      omega
    obtain ⟨t, h1, ht, hp⟩ := (S (n + r.size)).insert r hm hlk hroom (sizeOk_zero r)
    have had := ((M (n + r.size)).insert r hm hlk hroom (sizeOk_zero r) h1).2
    obtain ⟨s', h2, h3, h4⟩ := B.pull (f := fun s => A.insert s r) (fun s n => B.insert s r n) h1
    refine ⟨s', h2, ⟨by rw [← ha s' (n + r.size), h3, had, ha]; exact hadm, n + r.size, by rw [h3]; exact ht⟩, ?_, hz r h2, h4⟩
    rw [← hc s' (n + r.size), h3, ← hc s (n + r.size)]
    exact hp
  · rintro s r ⟨hadm, n, h⟩ hne
    show ∃ s' v, S3FIFOd.named (base s) (toEvict s) = some v ∧ A.evict s r = _ ∧ _ ∧ _ ∧ A.cacheSize s' = A.cacheSize s
    simp only [hcs]
    have hne' : (base (rz base setBase s n)).tbl ≠ [] := by
      rw [B.base_rz]
      intro h0
      have h0' : (base s).tbl = [] := h0
      simp [Base.cached, h0'] at hne
    obtain ⟨id, k, t', k1, k2, k3⟩ := te h hne' r
    obtain ⟨t, v, h1, ht, hp⟩ := (S n).evict r h hne' (.inl rfl)
    rw [k2] at h1; cases h1
    have had := ((M n).evict r h hne' k2).2
    obtain ⟨s', h2, h3, h4⟩ := B.pull (f := fun s => A.evict s r) (fun s n => B.evict s r n) k2
    rw [hc, ← h3, hc] at k3
    rw [B.toEvict] at k1
    have hmem : (id, k) ∈ (base s).cached := k3.symm.subset (by simp)
    obtain ⟨o, ho, e⟩ := List.mem_map.1 hmem
    have hlk : (base s).lookup id = some o := by
      have hnd := ((S n).inv h).inv.nodup
      rw [B.base_rz] at hnd
      injection e with e1 e2
      subst e1
      exact find_unique hnd ho
    injection e with e1 e2
    refine ⟨s', o.toReq, by simp [S3FIFOd.named, k1, hlk], h2, ⟨by rw [← ha s' n, h3, had, ha]; exact hadm, n, by rw [h3]; exact ht⟩, ?_, h4⟩
    rw [show o.toReq.id = id from e1, show o.toReq.size = k from e2]
    exact k3
  · rintro s id ⟨hadm, n, h⟩
    show ∃ s', A.remove s id = _ ∧ _ ∧ _ ∧ A.cacheSize s' = A.cacheSize s
    simp only [hcs]
    obtain ⟨t, h1, ht, hp⟩ := (S n).removeFull id h
    rw [hc] at h1 hp
    obtain ⟨s', h2, h3, h4⟩ := B.pull2 (f := fun s => A.remove s id) (fun s n => B.remove s id n) h1
    refine ⟨s', h2, ⟨?_, n, by rw [h3]; exact ht⟩, ?_, h4⟩
    · rw [← ha s' n, h3]
      cases hlk : (base (rz base setBase s n)).lookup id with
      | none =>
        have := (S n).removeMiss rfl id h hlk
        rw [h1] at this
        injection this with this
        injection this with _ this
        rw [this, ha]; exact hadm
      | some o =>
        have hin : id ∈ (base s).cached.ids := by
          have : ((base (rz base setBase s n)).lookup id).isSome = true := by rw [hlk]; rfl
          rw [lookup_isSome_iff] at this
          rw [hc] at this
          simpa using this
        rw [decide_eq_true hin] at h1
        rw [((M n).remove id o h hlk h1).2, ha]; exact hadm
    · rw [← hc s' n, h3]
      exact hp
  · rintro s m ⟨hadm, n, h⟩
    exact ⟨⟨by rw [show base _ = _ from B.base_rz s m]; exact hadm, n, by rw [show rz base setBase (rz base setBase s m) n = _ from B.rz_rz s m n]; exact h⟩, hc s m, by
      show A.cacheSize (rz base setBase s m) = m
      rw [hcs, B.base_rz]⟩

end

end Verif
