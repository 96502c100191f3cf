import Verif.Spec.LHDRank
import Verif.Base.Contract
import Mathlib.Algebra.Order.Field.Basic
import Mathlib.Tactic.Linarith
import Mathlib.Tactic.Positivity
import Mathlib.Tactic.NormNum
import Mathlib.Tactic.Ring
import Mathlib.Algebra.Order.Floor.Ring
import Mathlib.Data.Rat.Floor
import Mathlib.Algebra.BigOperators.Group.List.Basic
/-!
# Helper proofs for LHD: the class statistics and the tag vector
-/

namespace Verif.LHD
open Verif Spec
variable {R : Rounding}

/-! ### Numbers -/

theorem Rounding.zero (R : Rounding) : R.rnd 0 = 0 := by simpa using R.ints 0 (by decide)
theorem Rounding.one (R : Rounding) : R.rnd 1 = 1 := by simpa using R.ints 1 (by decide)
theorem Rounding.nat (R : Rounding) (n : Nat) (h : n ≤ 2 ^ 24) : R.rnd n = n := by simpa using R.ints (n : Int) (by simpa using h)
theorem Rounding.nonneg (R : Rounding) {x : Rat} (h : 0 ≤ x) : 0 ≤ R.rnd x := by have := R.mono _ _ h; rwa [R.zero] at this
theorem Rounding.le_nat (R : Rounding) {x : Rat} (n : Nat) (hn : n ≤ 2 ^ 24) (h : x ≤ n) : R.rnd x ≤ n := by
  have := R.mono _ _ h; rwa [R.nat n hn] at this
theorem Rounding.one_le (R : Rounding) {x : Rat} (h : 1 ≤ x) : 1 ≤ R.rnd x := by have := R.mono _ _ h; rwa [R.one] at this

/-- a stored count: not negative, and representable -/
def Num (R : Rounding) (x : Rat) : Prop := 0 ≤ x ∧ R.rnd x = x

theorem Num.rnd {x : Rat} (h : 0 ≤ x) : Num R (R.rnd x) := ⟨R.nonneg h, R.idem x⟩
theorem Num.zero : Num R 0 := ⟨le_refl _, R.zero⟩

def Nums (R : Rounding) (h : Nat → Rat) : Prop := ∀ a, Num R (h a)

theorem Nums.set {h : Nat → Rat} (hh : Nums R h) (i : Nat) {v : Rat} (hv : Num R v) : Nums R (set h i v) := by
  intro a
  unfold LHD.set
  split
  · exact hv
  · exact hh a

theorem foldl_inv {α β : Type} {P : α → Prop} {f : α → β → α} (hf : ∀ a b, P a → P (f a b)) : ∀ (l : List β) (a : α), P a → P (l.foldl f a)
  | [], _, h => h
  | b :: l, a, h => foldl_inv hf l (f a b) (hf a b h)

theorem decay_nonneg : 0 ≤ decay R := R.nonneg (by norm_num)

/-- what holds of the statistics of every class -/
structure ClassOk (R : Rounding) (c : Class) : Prop where
  hits : Nums R c.hits
  evictions : Nums R c.evictions
  nonneg : ∀ a, 0 ≤ c.dens a
  le : ∀ a, c.dens a ≤ 256

theorem ClassOk.updateClass {c : Class} (h : ClassOk R c) : ClassOk R (updateClass R c) where
  hits := by
    intro a
    simp only [LHD.updateClass]
    split
    · exact Num.rnd (mul_nonneg (h.hits a).1 decay_nonneg)
    · exact h.hits a
  evictions := by
    intro a
    simp only [LHD.updateClass]
    split
    · exact Num.rnd (mul_nonneg (h.evictions a).1 decay_nonneg)
    · exact h.evictions a
  nonneg := h.nonneg
  le := h.le

theorem modelLoop_bounds {c : Class} (hh : Nums R c.hits) (he : Nums R c.evictions) :
    ∀ (n : Nat) (events hits life : Rat) (d : Nat → Rat), 0 ≤ hits → hits ≤ events → 0 ≤ life →
      (∀ a, 0 ≤ d a ∧ d a ≤ 256) → ∀ a, 0 ≤ modelLoop R c n events hits life d a ∧ modelLoop R c n events hits life d a ≤ 256 := by
  intro n
  induction n with
  | zero => intro events hits life d _ _ _ hd a; exact hd a
  | succ n ih =>
    intro events hits life d h1 h2 h3 hd
    simp only [modelLoop]
    have hn := (hh n).1
    have en := (he n).1
    have k1 : c.hits n ≤ R.rnd (c.hits n + c.evictions n) := by
      have := R.mono (c.hits n) (c.hits n + c.evictions n) (by linarith)
      rwa [(hh n).2] at this
    generalize R.rnd (c.hits n + c.evictions n) = ev at *
    have k2 : R.rnd (hits + c.hits n) ≤ R.rnd (events + ev) := R.mono _ _ (by linarith)
    have k3 : 0 ≤ R.rnd (hits + c.hits n) := R.nonneg (by linarith)
    have k4 : R.rnd (events + ev) ≤ R.rnd (life + R.rnd (events + ev)) := by
      have := R.mono (R.rnd (events + ev)) (life + R.rnd (events + ev)) (by linarith)
      rwa [R.idem] at this
    generalize R.rnd (life + R.rnd (events + ev)) = lf at *
    generalize R.rnd (events + ev) = te at *
    generalize R.rnd (hits + c.hits n) = th at *
    refine ih te th lf _ k3 k2 (by linarith) ?_
    intro a
    unfold LHD.set
    split
    · split
      · rename_i hp
        have hlf : 0 < lf := by
          have : (0 : Rat) < 1 / 100000 := by norm_num
          linarith
        refine ⟨R.nonneg (div_nonneg k3 hlf.le), ?_⟩
        have := R.le_nat 1 (by decide) (x := th / lf) (by rw [div_le_iff₀ hlf]; push_cast; linarith)
        push_cast at this
        linarith
      · norm_num
    · exact hd a

theorem ClassOk.modelClass {c : Class} (h : ClassOk R c) : ClassOk R (modelClass R c) := by
  have hb := modelLoop_bounds h.hits h.evictions (maxAge - 1) (R.rnd (c.hits (maxAge - 1) + c.evictions (maxAge - 1))) (c.hits (maxAge - 1))
      (R.rnd (c.hits (maxAge - 1) + c.evictions (maxAge - 1))) c.dens (h.hits _).1
      (by
        have := R.mono (c.hits (maxAge - 1)) (c.hits (maxAge - 1) + c.evictions (maxAge - 1)) (by have := (h.evictions (maxAge - 1)).1; linarith)
        rwa [(h.hits (maxAge - 1)).2] at this)
      (R.nonneg (add_nonneg (h.hits _).1 (h.evictions _).1)) (fun a => ⟨h.nonneg a, h.le a⟩)
  revert hb
  unfold LHD.modelClass
  generalize modelLoop R c _ _ _ _ _ = d
  intro hb
  exact ⟨h.hits, h.evictions, fun a => (hb a).1, fun a => (hb a).2⟩

theorem Nums.stretch {h : Nat → Rat} (hh : Nums R h) (k : Nat) : Nums R (stretch R k h) := by
  unfold LHD.stretch
  refine foldl_inv (P := Nums R) (fun g a hg => hg.set a (Num.rnd (div_nonneg (hg _).1 (by positivity)))) _ _ ?_
  exact foldl_inv (P := Nums R) (fun g a hg => hg.set _ (Num.rnd (add_nonneg (hg _).1 (hg _).1))) _ _ hh

theorem Nums.compress {h : Nat → Rat} (hh : Nums R h) (k : Nat) : Nums R (compress R k h) := by
  unfold LHD.compress
  refine foldl_inv (P := Nums R) (fun g a hg => hg.set a Num.zero) _ _ ?_
  refine foldl_inv (P := Nums R) (fun g a hg => ?_) _ _ hh
  exact foldl_inv (P := Nums R) (fun g i hg => hg.set a (Num.rnd (add_nonneg (hg _).1 (hg _).1))) _ _ (hg.set a (hg _))

theorem ClassOk.rescale {c : Class} (h : ClassOk R c) (delta : Int) : ClassOk R (rescale R delta c) := by
  unfold LHD.rescale
  split
  · have h1 := h.hits.stretch delta.natAbs
    have h2 := h.evictions.stretch delta.natAbs
    revert h1 h2
    generalize LHD.stretch R delta.natAbs c.hits = x
    generalize LHD.stretch R delta.natAbs c.evictions = y
    exact fun h1 h2 => ⟨h1, h2, h.nonneg, h.le⟩
  · split
    · have h1 := h.hits.compress delta.natAbs
      have h2 := h.evictions.compress delta.natAbs
      revert h1 h2
      generalize LHD.compress R delta.natAbs c.hits = x
      generalize LHD.compress R delta.natAbs c.evictions = y
      exact fun h1 h2 => ⟨h1, h2, h.nonneg, h.le⟩
    · exact h

/-- every class is fine -/
def ClassesOk (R : Rounding) (f : Nat → Class) : Prop := ∀ c, c < numClasses → ClassOk R (f c)

theorem ClassesOk.set {f : Nat → Class} (h : ClassesOk R f) (i : Nat) {c : Class} (hc : i < numClasses → ClassOk R c) :
    ClassesOk R (LHD.set f i c) := by
  intro j hj
  unfold LHD.set
  split
  · rename_i e; exact hc (e ▸ hj)
  · exact h j hj

theorem ClassOk.addHit {c : Class} (h : ClassOk R c) (a : Nat) : ClassOk R (addHit R c a) :=
  ⟨h.hits.set a (Num.rnd (by have := (h.hits a).1; linarith)), h.evictions, h.nonneg, h.le⟩

theorem ClassOk.addEviction {c : Class} (h : ClassOk R c) (a : Nat) : ClassOk R (addEviction R c a) :=
  ⟨h.hits, h.evictions.set a (Num.rnd (by have := (h.evictions a).1; linarith)), h.nonneg, h.le⟩

/-! ### Ages and hit densities -/

theorem doublings_le : ∀ (n a : Nat), doublings n a ≤ n
  | 0, _ => le_refl _
  | n + 1, a => by
    unfold doublings
    split
    · have := doublings_le n (2 * a); omega
    · omega

theorem classId_lt {t : Tag} (h : t.app = 1) : classId t < numClasses := by
  have : hitAgeClass (t.lastHitAge + t.lastLastHitAge) ≤ 15 := by
    unfold hitAgeClass
    split
    · decide
    · exact doublings_le 15 _
  unfold classId
  rw [h]
  show 1 * 16 + _ < 16 * 16
  omega

theorem age_eq (s : State) (t : Tag) : age s t = objAge s t := rfl

theorem doublings_eq : ∀ (n a : Nat), doublings n a = ((List.range n).find? (fun k => decide (20000 ≤ 2 ^ k * a))).getD n
  | 0, _ => rfl
  | n + 1, a => by
    unfold doublings
    rw [List.range_succ_eq_map, List.find?_cons]
    by_cases h : a < maxAge
    · have h' : ¬ 20000 ≤ a := Nat.not_le.2 h
      rw [if_pos h, doublings_eq n (2 * a)]
      simp only [pow_zero, one_mul, h', decide_false]
      rw [List.find?_map]
      have e : ((fun k => decide (20000 ≤ 2 ^ k * a)) ∘ Nat.succ) = (fun k => decide (20000 ≤ 2 ^ k * (2 * a))) := by
        funext k
        simp only [Function.comp, Nat.succ_eq_add_one, pow_succ, mul_assoc]
      rw [e]
      cases (List.range n).find? (fun k => decide (20000 ≤ 2 ^ k * (2 * a))) <;> rfl
    · have h' : 20000 ≤ a := Nat.not_lt.1 h
      rw [if_neg h]
      simp only [pow_zero, one_mul, h', decide_true, Option.getD_some]

theorem classId_eq {t : Tag} (h : t.app = 1) : classId t = objClass t := by
  unfold classId objClass
  rw [h]
  show 1 * 16 + _ = _
  congr 1
  unfold hitAgeClass ageClass
  split
  · rename_i e; rw [e]; decide
  · exact doublings_eq 15 _

theorem density_eq {s : State} {t : Tag} (ha : t.app = 1) (hs : 1 ≤ t.size) : density R s t = .ok (some (dens R s t)) := by
  have h0 : t.size ≠ 0 := fun e => by rw [e] at hs; exact absurd hs (by norm_num)
  have h1 : ¬ (numClasses ≤ classId t) := Nat.not_le.2 (classId_lt ha)
  unfold density dens
  rw [← classId_eq ha, ← age_eq]
  have e19 : maxAge - 1 = 19999 := rfl
  rw [e19]
  by_cases h2 : age s t = 19999
  · simp only [h2, if_true]
  · simp only [h2, if_false, ge_iff_le, h1, h0]
    cases t.explorer <;> rfl

theorem dens_lt {s : State} {t : Tag} (hc : ClassesOk R s.classes) (ha : t.app = 1) (hs : 1 ≤ t.size) : dens R s t < fltMax := by
  have h1 := hc _ (classId_lt ha)
  have hq : (s.classes (classId t)).dens (age s t) / t.size ≤ 256 := by
    rw [div_le_iff₀ (by linarith)]
    have := h1.le (age s t)
    nlinarith
  have hr := R.le_nat 256 (by decide) (x := (s.classes (classId t)).dens (age s t) / t.size) (by push_cast; exact hq)
  push_cast at hr
  unfold dens
  rw [← classId_eq ha, ← age_eq]
  split
  · norm_num
  · split
    · have := R.le_nat 257 (by decide) (x := R.rnd ((s.classes (classId t)).dens (age s t) / t.size) + 1) (by push_cast; linarith)
      push_cast at this
      have h3 : (257 : Rat) < fltMax := by norm_num
      linarith
    · have h3 : (256 : Rat) < fltMax := by norm_num
      linarith

/-- `dens` depends on the statistics, the clock and the tag only. -/
theorem dens_congr {s s' : State} (hc : s'.classes = s.classes) (ht : s'.timestamp = s.timestamp) (hs : s'.shift = s.shift) (t : Tag) :
    dens R s' t = dens R s t := by
  unfold dens objAge
  rw [hc, ht, hs]

/-! ### Counting an access -/

theorem reconfigure_frame (s : State) : (reconfigure R s).base = s.base ∧ (reconfigure R s).sizeMap = s.sizeMap ∧
    (reconfigure R s).tags = s.tags ∧ (reconfigure R s).indices = s.indices ∧ (reconfigure R s).cand = s.cand ∧
    (reconfigure R s).candVt = s.candVt ∧ (reconfigure R s).recent = s.recent ∧ (reconfigure R s).budget = s.budget ∧
    (reconfigure R s).timestamp = s.timestamp ∧ (reconfigure R s).picks = s.picks ∧
    (reconfigure R s).numReconfigurations = s.numReconfigurations := by
  unfold reconfigure adaptAgeCoarsening
  dsimp only
  split <;> exact ⟨rfl, rfl, rfl, rfl, rfl, rfl, rfl, rfl, rfl, rfl, rfl⟩

theorem reconfigure_classes {s : State} (h : ClassesOk R s.classes) : ClassesOk R (reconfigure R s).classes := by
  intro c hc
  unfold reconfigure adaptAgeCoarsening
  dsimp only
  split
  · exact (((h c hc).updateClass).rescale _).modelClass
  · exact ((h c hc).updateClass).modelClass

theorem tick_frame (s : State) : (tick R s).base = s.base ∧ (tick R s).sizeMap = s.sizeMap ∧
    (tick R s).tags = s.tags ∧ (tick R s).indices = s.indices ∧ (tick R s).cand = s.cand ∧ (tick R s).candVt = s.candVt ∧
    (tick R s).recent = s.recent ∧ (tick R s).budget = s.budget ∧ (tick R s).timestamp = s.timestamp + 1 ∧ (tick R s).picks = s.picks := by
  unfold tick
  split
  · have h := reconfigure_frame (R := R) { s with timestamp := s.timestamp + 1, nextReconfiguration := s.nextReconfiguration - 1 }
    revert h
    dsimp only
    generalize reconfigure R { s with timestamp := s.timestamp + 1, nextReconfiguration := s.nextReconfiguration - 1 } = X
    intro h
    exact ⟨h.1, h.2.1, h.2.2.1, h.2.2.2.1, h.2.2.2.2.1, h.2.2.2.2.2.1, h.2.2.2.2.2.2.1, h.2.2.2.2.2.2.2.1, h.2.2.2.2.2.2.2.2.1,
      h.2.2.2.2.2.2.2.2.2.1⟩
  · exact ⟨rfl, rfl, rfl, rfl, rfl, rfl, rfl, rfl, rfl, rfl⟩

theorem tick_classes {s : State} (h : ClassesOk R s.classes) : ClassesOk R (tick R s).classes := by
  unfold tick
  split
  · exact reconfigure_classes (s := { s with timestamp := s.timestamp + 1, nextReconfiguration := s.nextReconfiguration - 1 }) h
  · exact h

/-- Reconfigurations happen every 2^20 accesses, and before the first one the ages are in units of 2^10 and the hit densities as set
initially. -/
structure Clock (R : Rounding) (s : State) : Prop where
  num : s.numReconfigurations = s.timestamp / 2 ^ 20
  next : s.nextReconfiguration = 2 ^ 20 - s.timestamp % 2 ^ 20
  early : s.timestamp < 2 ^ 20 → s.shift = 10 ∧ ∀ c a, (s.classes c).dens a = R.rnd (((c + 1 : Nat) : Rat) / ((a + 1 : Nat) : Rat))

theorem Clock.congr {s s' : State} (h : Clock R s) (h1 : s'.numReconfigurations = s.numReconfigurations) (h2 : s'.timestamp = s.timestamp)
    (h3 : s'.nextReconfiguration = s.nextReconfiguration) (h4 : s'.shift = s.shift) (h5 : ∀ c, (s'.classes c).dens = (s.classes c).dens) :
    Clock R s' :=
  ⟨by rw [h1, h2]; exact h.num, by rw [h2, h3]; exact h.next, by rw [h2, h4]; intro hh; exact ⟨(h.early hh).1, fun c a => by rw [h5]; exact (h.early hh).2 c a⟩⟩

theorem tick_clock {s : State} (h : Clock R s) : Clock R (tick R s) := by
  have h1 := h.num
  have h2 := h.next
  obtain ⟨_, _, _, _, _, _, _, _, f9, _⟩ := tick_frame (R := R) s
  unfold tick at f9 ⊢
  split
  · rename_i hz
    rw [if_pos hz] at f9
    have f := reconfigure_frame (R := R) { s with timestamp := s.timestamp + 1, nextReconfiguration := s.nextReconfiguration - 1 }
    obtain ⟨_, _, _, _, _, _, _, _, f1, _, f2⟩ := f
    revert f1 f2 f9
    dsimp only
    generalize reconfigure R { s with timestamp := s.timestamp + 1, nextReconfiguration := s.nextReconfiguration - 1 } = X
    intro f9 f1 f2
    have e : s.timestamp % 2 ^ 20 = 2 ^ 20 - 1 := by
      have := Nat.mod_lt s.timestamp (show 0 < 2 ^ 20 by decide)
      omega
    constructor
    · dsimp only; rw [f9, f2, h1]; omega
    · dsimp only; rw [f9]
      show 2 ^ 20 = _
      omega
    · dsimp only; rw [f9]; intro hh; omega
  · rename_i hz
    have hne : ¬ 2 ^ 20 - s.timestamp % 2 ^ 20 - 1 = 0 := by rw [← h2]; exact hz
    constructor
    · dsimp only; rw [h1]; omega
    · dsimp only; rw [h2]; omega
    · dsimp only
      intro hh
      exact h.early (by omega)

theorem set_addHit_dens (f : Nat → Class) (i a c : Nat) : (LHD.set f i (addHit R (f i) a) c).dens = (f c).dens := by
  unfold LHD.set
  split
  · rename_i e; subst e; rfl
  · rfl

theorem set_addEviction_dens (f : Nat → Class) (i a c : Nat) : (LHD.set f i (addEviction R (f i) a) c).dens = (f c).dens := by
  unfold LHD.set
  split
  · rename_i e; subst e; rfl
  · rfl

/-! ### The budget of the explorers -/

theorem toInt_int (z : Int) : toInt (z : Rat) = z := by
  unfold toInt
  split
  · exact Rat.floor_intCast z
  · have : -(z : Rat) = ((-z : Int) : Rat) := by push_cast; rfl
    rw [this, Rat.floor_intCast]; omega

theorem explorers_append (l : List Tag) (t : Tag) : explorers (l ++ [t]) = explorers l + (if t.explorer then t.size else 0) := by
  simp [explorers]

theorem explorers_perm {l l' : List Tag} (h : l.Perm l') : explorers l = explorers l' := (h.map _).sum_eq

theorem explorers_cons (l : List Tag) (t : Tag) : explorers (t :: l) = (if t.explorer then t.size else 0) + explorers l := by
  simp [explorers]

theorem explorers_set : ∀ {l : List Tag} {i : Nat} {t : Tag} (T : Tag), l[i]? = some t →
    explorers (l.set i T) + (if t.explorer then t.size else 0) = explorers l + (if T.explorer then T.size else 0)
  | [], _, _, _, h => by simp at h
  | x :: l, 0, t, T, h => by
    simp at h
    subst h
    simp only [List.set_cons_zero, explorers_cons]
    ring
  | x :: l, i + 1, t, T, h => by
    simp only [List.getElem?_cons_succ] at h
    have := explorers_set T h
    simp only [List.set_cons_succ, explorers_cons]
    linarith

/-! ### The tag vector -/

/-- The index is right, and every tag is fine. -/
structure TInv (R : Rounding) (s : State) : Prop where
  perm : (s.tags.map (·.id)).Perm (s.sizeMap.map Prod.fst)
  idx : ∀ id i, s.indices id = some i ↔ ∃ t, s.tags[i]? = some t ∧ t.id = id
  app : ∀ t ∈ s.tags, t.app = 1
  pos : ∀ t ∈ s.tags, 1 ≤ t.size
  classes : ClassesOk R s.classes
  clk : Clock R s
  siz : ∀ t ∈ s.tags, ∃ n : Nat, t.size = R.rnd n

theorem TInv.some {s : State} (h : TInv R s) {id : ObjId} (hid : id ∈ s.sizeMap.map Prod.fst) :
    ∃ i t, s.indices id = some i ∧ s.tags[i]? = some t ∧ t.id = id := by
  obtain ⟨t, ht, rfl⟩ := List.mem_map.1 (h.perm.symm.subset hid)
  obtain ⟨i, hi⟩ := List.mem_iff_getElem?.1 ht
  exact ⟨i, t, (h.idx _ _).2 ⟨t, hi, rfl⟩, hi, rfl⟩

theorem TInv.none {s : State} (h : TInv R s) {id : ObjId} (hid : id ∉ s.sizeMap.map Prod.fst) : s.indices id = none := by
  cases e : s.indices id with
  | none => rfl
  | some i =>
    obtain ⟨t, h1, h2⟩ := (h.idx _ _).1 e
    exact absurd (h.perm.subset (List.mem_map.2 ⟨t, List.mem_of_getElem? h1, h2⟩)) hid

/-- What `touchTag` does: the tag is stamped, the access is counted. -/
theorem touchTag_spec {s : State} {i : Nat} {t : Tag} {ins : Bool} {z : Nat} (hz : 0 < z) :
    ∃ s', touchTag R s i t ins z = .ok s' ∧ s'.base = s.base ∧ s'.sizeMap = s.sizeMap ∧ s'.tags = s.tags.set i (stamp R s z t) ∧
      s'.indices = s.indices ∧ s'.cand = s.cand ∧ s'.candVt = s.candVt ∧ (ClassesOk R s.classes → ClassesOk R s'.classes) ∧
      s'.timestamp = s.timestamp + 1 ∧ (Clock R s → Clock R s') ∧
      s'.budget = if explorer s then toInt (R.rnd (R.rnd s.budget - R.rnd z)) else s.budget := by
  have h1 : 1 ≤ (stamp R s z t).size := R.one_le (by exact_mod_cast hz)
  have h2 := density_eq (R := R) (s := s) (t := stamp R s z t) rfl h1
  unfold touchTag
  rw [h2, Res.bind_ok]
  refine ⟨_, rfl, ?_⟩
  generalize hX : ({ s with
      tags := s.tags.set i (stamp R s z t)
      picks := s.picks.tail
      budget := if explorer s then toInt (R.rnd (R.rnd s.budget - R.rnd z)) else s.budget
      recent := if ins && !explore s && below (Option.some (dens R s (stamp R s z t))) s.ewmaVictim then
        s.recent.set (s.recentHead % admissions) (Option.some t.id) else s.recent
      recentHead := if ins && !explore s && below (Option.some (dens R s (stamp R s z t))) s.ewmaVictim then s.recentHead + 1 else s.recentHead } : State) = X
  have hb : X.base = s.base ∧ X.sizeMap = s.sizeMap ∧ X.tags = s.tags.set i (stamp R s z t) ∧ X.indices = s.indices ∧ X.cand = s.cand ∧
      X.candVt = s.candVt ∧ X.classes = s.classes ∧ X.timestamp = s.timestamp ∧
      X.budget = (if explorer s then toInt (R.rnd (R.rnd s.budget - R.rnd z)) else s.budget) ∧
      X.numReconfigurations = s.numReconfigurations ∧ X.nextReconfiguration = s.nextReconfiguration ∧ X.shift = s.shift := by
    subst hX; exact ⟨rfl, rfl, rfl, rfl, rfl, rfl, rfl, rfl, rfl, rfl, rfl, rfl⟩
  obtain ⟨b1, b2, b3, b4, b5, b6, b7, b8, b9, b10, b11, b12⟩ := hb
  obtain ⟨c1, c2, c3, c4, c5, c6, _, c7, c8, _⟩ := tick_frame (R := R) X
  exact ⟨c1.trans b1, c2.trans b2, c3.trans b3, c4.trans b4, c5.trans b5, c6.trans b6, fun h => tick_classes (by rw [b7]; exact h),
    by rw [c8, b8], fun h => tick_clock (h.congr b10 b8 b11 b12 (fun c => by rw [b7])), c7.trans b9⟩

theorem stamp_id (s : State) (z : Nat) (t : Tag) : (stamp R s z t).id = t.id := rfl

/-- `update` on a new object. -/
theorem update_new {s : State} {id : ObjId} {z : Nat} (hz : 0 < z) (hn : id ∉ s.tags.map (·.id))
    (hidx : ∀ id i, s.indices id = some i ↔ ∃ t, s.tags[i]? = some t ∧ t.id = id)
    (happ : ∀ t ∈ s.tags, t.app = 1) (hpos : ∀ t ∈ s.tags, 1 ≤ t.size) (hcl : ClassesOk R s.classes)
    (hk : Clock R s) (hsz : ∀ t ∈ s.tags, ∃ n : Nat, t.size = R.rnd n)
    (hperm : (id :: s.tags.map (·.id)).Perm (s.sizeMap.map Prod.fst)) :
    ∃ s', update R s id z = .ok s' ∧ TInv R s' ∧ s'.base = s.base ∧ s'.sizeMap = s.sizeMap ∧ s'.cand = s.cand ∧ s'.candVt = s.candVt ∧
      s'.timestamp = s.timestamp + 1 ∧ (R = .exact → balance s' = balance s) := by
  have hno : s.indices id = none := by
    cases e : s.indices id with
    | none => rfl
    | some i =>
      obtain ⟨t, h1, h2⟩ := (hidx _ _).1 e
      exact absurd (List.mem_map.2 ⟨t, List.mem_of_getElem? h1, h2⟩) hn
  unfold update
  rw [hno]
  dsimp only
  obtain ⟨s', h1, h2, h3, h4, h5, h6, h7, h8, h9, h10, h11⟩ := touchTag_spec (R := R)
    (s := { s with tags := s.tags ++ [{ lastLastHitAge := maxAge, lastHitAge := 0, id := id }], indices := set s.indices id (some s.tags.length) })
    (i := s.tags.length) (t := { lastLastHitAge := maxAge, lastHitAge := 0, id := id }) (ins := true) hz
  have hk' := h10 (hk.congr rfl rfl rfl rfl (fun c => rfl))
  clear h10
  dsimp only at h2 h3 h4 h5 h8 h9
  rw [List.set_append_right _ _ (le_refl _), Nat.sub_self, List.set_cons_zero] at h4
  generalize hT : stamp R ({ s with tags := s.tags ++ [{ lastLastHitAge := maxAge, lastHitAge := 0, id := id }], indices := set s.indices id (some s.tags.length) } : State) z
    { lastLastHitAge := maxAge, lastHitAge := 0, id := id } = T at h4
  have hTi : T.id = id := by subst hT; rfl
  have hTa : T.app = 1 := by subst hT; rfl
  have hTs : 1 ≤ T.size := by subst hT; exact R.one_le (by exact_mod_cast hz)
  have hTn : T.size = R.rnd z := by subst hT; rfl
  have hTe : T.explorer = explorer s := by subst hT; rfl
  have h11' : s'.budget = if explorer s then toInt (R.rnd (R.rnd s.budget - R.rnd z)) else s.budget := h11
  clear hT h11
  refine ⟨s', h1, ?_, h2, h3, h6, h7, h9, ?_⟩
  rotate_left
  · intro hR
    unfold balance
    rw [h4, h11', explorers_append, hTe, hTn]
    subst hR
    cases explorer s with
    | false => simp
    | true =>
      have : ((s.budget : Rat) - (z : Rat)) = ((s.budget - (z : Int) : Int) : Rat) := by push_cast; rfl
      simp only [if_true, Rounding.exact, id_eq, this, toInt_int]
      push_cast
      ring
  clear h1
  constructor
  · rw [h4, h3, List.map_append]
    refine List.Perm.trans List.perm_append_comm ?_
    simpa [hTi] using hperm
  · intro id' i
    rw [h5, h4]
    unfold LHD.set
    by_cases e : id' = id
    · subst e
      simp only [if_true]
      constructor
      · intro h; cases h
        exact ⟨T, by simp, hTi⟩
      · rintro ⟨t, k1, k2⟩
        by_cases hi : i < s.tags.length
        · rw [List.getElem?_append_left hi] at k1
          exact absurd (List.mem_map.2 ⟨t, List.mem_of_getElem? k1, k2⟩) hn
        · have : i < (s.tags ++ [T]).length := (List.getElem?_eq_some_iff.1 k1).1
          simp at this
          congr 1; omega
    · simp only [e, if_false]
      rw [hidx]
      constructor
      · rintro ⟨t, k1, k2⟩
        have : i < s.tags.length := (List.getElem?_eq_some_iff.1 k1).1
        exact ⟨t, by rw [List.getElem?_append_left this]; exact k1, k2⟩
      · rintro ⟨t, k1, k2⟩
        by_cases hi : i < s.tags.length
        · rw [List.getElem?_append_left hi] at k1
          exact ⟨t, k1, k2⟩
        · have hl : i < (s.tags ++ [T]).length := (List.getElem?_eq_some_iff.1 k1).1
          simp at hl
          have hi2 : i = s.tags.length := by omega
          subst hi2
          simp at k1
          subst k1
          exact absurd (k2.symm.trans hTi) e
  · rw [h4]
    intro t ht
    rcases List.mem_append.1 ht with ht | ht
    · exact happ t ht
    · rw [List.mem_singleton.1 ht]; exact hTa
  · rw [h4]
    intro t ht
    rcases List.mem_append.1 ht with ht | ht
    · exact hpos t ht
    · rw [List.mem_singleton.1 ht]; exact hTs
  · exact h8 hcl
  · exact hk'
  · rw [h4]
    intro t ht
    rcases List.mem_append.1 ht with ht | ht
    · exact hsz t ht
    · rw [List.mem_singleton.1 ht]; exact ⟨z, hTn⟩

/-- `update` on a cached object. -/
theorem update_hit {s : State} {id : ObjId} {z : Nat} (hz : 0 < z) (h : TInv R s) (hid : id ∈ s.sizeMap.map Prod.fst) :
    ∃ s', update R s id z = .ok s' ∧ TInv R s' ∧ s'.base = s.base ∧ s'.sizeMap = s.sizeMap ∧ s'.cand = s.cand ∧ s'.candVt = s.candVt ∧
      s'.timestamp = s.timestamp + 1 ∧ (R = .exact → balance s' = balance s) := by
  obtain ⟨i, t, h1, h2, h3⟩ := h.some hid
  have hta := h.app t (List.mem_of_getElem? h2)
  have hil : i < s.tags.length := (List.getElem?_eq_some_iff.1 h2).1
  unfold update
  simp only [h1, h2]
  rw [if_neg (not_not.2 h3), if_neg (Nat.not_le.2 (classId_lt hta))]
  obtain ⟨s', k1, k2, k3, k4, k5, k6, k7, k8, k9, k10, k11⟩ := touchTag_spec (R := R)
    (s := { s with classes := set s.classes (classId t) (addHit R (s.classes (classId t)) (age s t)), budget := giveBack R s t })
    (i := i) (t := { t with lastLastHitAge := t.lastHitAge, lastHitAge := age s t }) (ins := false) hz
  have hk' := k10 (h.clk.congr rfl rfl rfl rfl (fun c => set_addHit_dens _ _ _ c))
  clear k10
  dsimp only at k3 k4 k5 k8 k9
  generalize hT : stamp R ({ s with classes := set s.classes (classId t) (addHit R (s.classes (classId t)) (age s t)), budget := giveBack R s t } : State) z
    { t with lastLastHitAge := t.lastHitAge, lastHitAge := age s t } = T at k4
  have hTi : T.id = id := by subst hT; exact h3
  have hTa : T.app = 1 := by subst hT; rfl
  have hTs : 1 ≤ T.size := by subst hT; exact R.one_le (by exact_mod_cast hz)
  have hTn : T.size = R.rnd z := by subst hT; rfl
  generalize hS : ({ s with classes := set s.classes (classId t) (addHit R (s.classes (classId t)) (age s t)), budget := giveBack R s t } : State) = S at k11 hT k1
  have hSb : S.budget = giveBack R s t := by subst hS; rfl
  have hTe : T.explorer = explorer S := by subst hT; rfl
  clear hT hS
  refine ⟨s', k1, ?_, k2, k3, k6, k7, k9, ?_⟩
  rotate_left
  · intro hR
    have he := explorers_set T h2
    obtain ⟨n, hn⟩ := h.siz t (List.mem_of_getElem? h2)
    have hg : (S.budget : Rat) = s.budget + (if t.explorer then t.size else 0) := by
      rw [hSb]
      unfold giveBack
      subst hR
      cases t.explorer with
      | false => simp
      | true =>
        have : ((s.budget : Rat) + (n : Rat)) = ((s.budget + (n : Int) : Int) : Rat) := by push_cast; rfl
        simp only [if_true, Rounding.exact, id_eq, hn, this, toInt_int]
    unfold balance
    rw [k4, k11]
    rw [hTe, hTn] at he
    subst hR
    cases hx : explorer S with
    | false => simp only [hx] at he ⊢; simp at he ⊢; linarith
    | true =>
      have : ((S.budget : Rat) - (z : Rat)) = ((S.budget - (z : Int) : Int) : Rat) := by push_cast; rfl
      simp only [hx, if_true, Rounding.exact, id_eq, this, toInt_int] at he ⊢
      push_cast
      linarith
  clear k1
  have hmap : (s.tags.set i T).map (·.id) = s.tags.map (·.id) := by
    rw [List.map_set]
    refine List.ext_getElem? fun j => ?_
    rw [List.getElem?_set]
    split
    · rename_i e; subst e
      rw [if_pos (by simpa using hil), List.getElem?_map, h2, hTi, ← h3]; rfl
    · rfl
  constructor
  · rw [k4, k3, hmap]; exact h.perm
  · intro id' j
    rw [k5, k4, h.idx]
    by_cases e : i = j
    · subst e
      simp only [h2, List.getElem?_set_self hil, Option.some.injEq, exists_eq_left', h3, hTi]
    · rw [List.getElem?_set_ne e]
  · rw [k4]
    intro t' ht'
    rcases List.mem_or_eq_of_mem_set ht' with ht' | rfl
    · exact h.app t' ht'
    · exact hTa
  · rw [k4]
    intro t' ht'
    rcases List.mem_or_eq_of_mem_set ht' with ht' | rfl
    · exact h.pos t' ht'
    · exact hTs
  · exact k8 (h.classes.set _ (fun hh => (h.classes _ hh).addHit _))
  · exact hk'
  · rw [k4]
    intro t' ht'
    rcases List.mem_or_eq_of_mem_set ht' with ht' | rfl
    · exact h.siz t' ht'
    · exact ⟨z, hTn⟩

end Verif.LHD
