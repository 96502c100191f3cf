import Verif.Proof.SegCaches
import Verif.Base.Medium
/-!
# SLRUv0 keeps its segments in the specified order
-/

namespace Verif.SegCaches
open Verif Spec Segmented

/-- everything in the first `n` caches -/
def all (n : Nat) (g : Arr) : Contents := (List.range n).flatMap (fun k => (g k).base.cached)

section
variable {L md n : Nat} {a : Segs} {g : Arr}

theorem Abs.mem_all (h : Abs L md n a g) (x : ObjId × Nat) : x ∈ all n g ↔ ∃ k, (x.1, x.2 + md) ∈ a k := by
  simp only [all, List.mem_flatMap, List.mem_range]
  constructor
  · rintro ⟨k, hk, hx⟩
    obtain ⟨l, h1, h2⟩ := h.rep k hk
    have := h1.cached.mem_iff.1 hx
    obtain ⟨o, ho, rfl⟩ := List.mem_map.1 this
    exact ⟨k, by rw [h2]; exact List.mem_map.2 ⟨o, ho, rfl⟩⟩
  · rintro ⟨k, hx⟩
    have hk := h.lt hx
    obtain ⟨l, h1, h2⟩ := h.rep k hk
    rw [h2, chg, List.mem_map] at hx
    obtain ⟨o, ho, e⟩ := hx
    refine ⟨k, hk, h1.cached.mem_iff.2 (List.mem_map.2 ⟨o, ho, ?_⟩)⟩
    injection e with e1 e2
    exact Prod.ext e1 (by simpa using e2)

theorem Abs.ids_all (h : Abs L md n a g) (id : ObjId) : id ∈ (all n g).ids ↔ ∃ k y, y ∈ a k ∧ y.1 = id := by
  constructor
  · intro hm
    obtain ⟨x, hx, rfl⟩ := List.mem_map.1 hm
    obtain ⟨k, hk⟩ := (h.mem_all x).1 hx
    exact ⟨k, _, hk, rfl⟩
  · rintro ⟨k, y, hy, rfl⟩
    obtain ⟨m, e, _⟩ := h.small hy
    exact List.mem_map.2 ⟨(y.1, m), (h.mem_all _).2 ⟨k, by rw [← e]; exact hy⟩, rfl⟩

theorem Abs.nodup (h : Abs L md n a g) : (all n g).ids.Nodup := by
  rw [Contents.ids, all, List.map_flatMap, List.nodup_flatMap]
  constructor
  · intro k hk
    obtain ⟨l, h1, _⟩ := h.rep k (List.mem_range.1 hk)
    have := (h1.cached.map Prod.fst).nodup_iff.2 (by rw [← Contents.ids, cont_ids]; exact h1.nodup)
    exact this
  · refine (List.pairwise_lt_range (n := n)).imp_of_mem ?_
    intro i j hi hj hij
    simp only [Function.onFun]
    intro id h1 h2
    obtain ⟨x, hx, rfl⟩ := List.mem_map.1 h1
    obtain ⟨y, hy, e⟩ := List.mem_map.1 h2
    have key : ∀ k, k < n → ∀ z ∈ (g k).base.cached, (z.1, z.2 + md) ∈ a k := by
      intro k hk z hz
      obtain ⟨l, q1, q2⟩ := h.rep k hk
      obtain ⟨o, ho, rfl⟩ := List.mem_map.1 (q1.cached.mem_iff.1 hz)
      rw [q2]; exact List.mem_map.2 ⟨o, ho, rfl⟩
    have := h.uniq i j _ _ (key i (List.mem_range.1 hi) x hx) (key j (List.mem_range.1 hj) y hy) e.symm
    omega

theorem charge_append' {md : Nat} {c d : Contents} : charge md (c ++ d) = charge md c + charge md d := by
  induction c with
  | nil => simp [charge]
  | cons x c ih => simp only [List.cons_append, charge, ih]; omega

theorem sum_occ (h : Abs L md n a g) : ∀ m, m ≤ n → ((List.range m).map (fun k => (g k).base.occ)).sum = (charge md (all m g) : Nat) := by
  intro m
  induction m with
  | zero => intro _; rfl
  | succ m ih =>
    intro hm
    rw [List.range_succ, List.map_append, List.sum_append, ih (by omega)]
    obtain ⟨l, h1, _⟩ := h.rep m (by omega)
    have e : all (m + 1) g = all m g ++ (g m).base.cached := by simp [all, List.range_succ]
    rw [e, charge_append', charge_perm h1.cached]
    simp [h1.occ]

theorem sum_nObj (h : Abs L md n a g) : ∀ m, m ≤ n → ((List.range m).map (fun k => (g k).base.nObj)).sum = ((all m g).length : Nat) := by
  intro m
  induction m with
  | zero => intro _; rfl
  | succ m ih =>
    intro hm
    rw [List.range_succ, List.map_append, List.sum_append, ih (by omega)]
    obtain ⟨l, h1, _⟩ := h.rep m (by omega)
    have e : all (m + 1) g = all m g ++ (g m).base.cached := by simp [all, List.range_succ]
    rw [e, List.length_append, h1.cached.length_eq, cont_length]
    simp [h1.nObj]

theorem sum_len (h : Abs L md n a g) : ∀ m, m ≤ n → ((List.range m).map (fun k => (g k).q.length)).sum = (all m g).length := by
  intro m
  induction m with
  | zero => intro _; rfl
  | succ m ih =>
    intro hm
    rw [List.range_succ, List.map_append, List.sum_append, ih (by omega)]
    obtain ⟨l, h1, _⟩ := h.rep m (by omega)
    have e : all (m + 1) g = all m g ++ (g m).base.cached := by simp [all, List.range_succ]
    rw [e, List.length_append, h1.cached.length_eq, cont_length]
    simp [h1.q]

theorem sum_within (h : Abs L md n a g) (hw : Within L a) : ∀ m, m ≤ n → ((List.range m).map (fun k => (g k).base.occ)).sum ≤ ((m * L : Nat) : Int) := by
  intro m
  induction m with
  | zero => intro _; simp
  | succ m ih =>
    intro hm
    rw [List.range_succ, List.map_append, List.sum_append]
    have h1 := ih (by omega)
    have h2 := h.occ (show m < n by omega)
    have h3 := hw m
    have h4 : ((m + 1) * L : Nat) = m * L + L := by rw [Nat.succ_mul]
    simp only [List.map_cons, List.map_nil, List.sum_cons, List.sum_nil]
    omega

theorem sub_all {a' : Segs} {g' : Arr} (h : Abs L md n a g) (h' : Abs L md n a' g') (hs : Sub a' a) : (all n g').Subperm (all n g) := by
  refine List.subperm_of_subset (h'.nodup.of_map _) ?_
  intro x hx
  obtain ⟨k, hk⟩ := (h'.mem_all x).1 hx
  exact (h.mem_all x).2 (hs k _ hk)

theorem find_range {p : Nat → Bool} {k : Nat} (hk : k < n) (hp : p k = true) (hl : ∀ j, j < k → p j = false) : (List.range n).find? p = some k := by
  rw [List.find?_range_eq_some]
  exact ⟨hp, by simpa using hk, fun j hj => by simp [hl j hj]⟩

theorem find_range_none {p : Nat → Bool} (h : ∀ j, j < n → p j = false) : (List.range n).find? p = none := by
  rw [List.find?_range_eq_none]
  intro j hj
  simp [h j hj]

/-- the first segment with a property -/
theorem exists_first {P : Nat → Prop} [DecidablePred P] : ∀ {k : Nat}, P k → ∃ j, j ≤ k ∧ P j ∧ ∀ i, i < j → ¬ P i := by
  intro k hk
  induction k using Nat.strongRecOn with
  | ind k ih =>
    by_cases h : ∃ i, i < k ∧ P i
    · obtain ⟨i, hi, hp⟩ := h
      obtain ⟨j, h1, h2, h3⟩ := ih i hi hp
      exact ⟨j, by omega, h2, h3⟩
    · exact ⟨k, Nat.le_refl k, hk, fun i hi hp => h ⟨i, hi, hp⟩⟩

end
end Verif.SegCaches

namespace Verif.SLRUv0
open Verif Spec Segmented SegCaches

/-- What the cache holds: the objects in the segments. -/
def cached (s : State) : Contents := all s.n s.seg

/-- The state holds the segments `a`. -/
structure Holds (cs md n : Nat) (a : Spec.Segmented.Segs) (s : State) : Prop where
  csz : s.base.cacheSize = cs
  mdz : s.base.objMd = md
  nz : s.n = n
  abs : Abs (cs / n) md n a s.seg
  within : Within (cs / n) a

/-- The objects in the segments have their sizes. -/
def Sized (sz : ObjId → Nat) (md : Nat) (p : Perms) (a : Spec.Segmented.Segs) : Prop :=
  ∀ k, ∀ x ∈ a k, x.2 = sz x.1 + md ∧ (p.ev = true → 0 < x.2)

theorem Sized.sub {sz : ObjId → Nat} {md : Nat} {p : Perms} {a a' : Spec.Segmented.Segs} (h : Sized sz md p a) (hs : Sub a' a) : Sized sz md p a' := by
  intro k x hx
  obtain ⟨i, hi⟩ := hs k x hx
  exact h i x hi

/-- Between calls. -/
def Inv (sz : ObjId → Nat) (cs md n : Nat) (p : Perms) (s : State) : Prop := ∃ a, Holds cs md n a s ∧ Sized sz md p a

/-- the limits of the segments -/
abbrev lim (cs n : Nat) : Nat → Nat := fun _ => cs / n

section
variable {cs md n : Nat} {a : Spec.Segmented.Segs} {s : State}

namespace Holds

theorem mem (h : Holds cs md n a s) (x : ObjId × Nat) : x ∈ cached s ↔ ∃ k, (x.1, x.2 + md) ∈ a k := by
  rw [cached, h.nz]; exact h.abs.mem_all x

theorem ids (h : Holds cs md n a s) (id : ObjId) : id ∈ (cached s).ids ↔ ∃ k y, y ∈ a k ∧ y.1 = id := by
  rw [cached, h.nz]; exact h.abs.ids_all id

theorem nodup (h : Holds cs md n a s) : (cached s).ids.Nodup := by rw [cached, h.nz]; exact h.abs.nodup

theorem absent (h : Holds cs md n a s) {id : ObjId} (hn : id ∉ (cached s).ids) : Absent id a := by
  intro k y hy e
  exact hn ((h.ids id).2 ⟨k, y, hy, e⟩)

theorem sub {a' : Spec.Segmented.Segs} {s' : State} (h : Holds cs md n a s) (h' : Holds cs md n a' s') (hs : Sub a' a) : (cached s').Subperm (cached s) := by
  rw [cached, cached, h.nz, h'.nz]; exact sub_all h.abs h'.abs hs

theorem seg {g : Arr} {a' : Spec.Segmented.Segs} (h : Holds cs md n a s) (h1 : Abs (cs / n) md n a' g) (h2 : Within (cs / n) a') :
    Holds cs md n a' { s with seg := g } := ⟨h.csz, h.mdz, h.nz, h1, h2⟩

theorem locate_hit (h : Holds cs md n a s) {k : Nat} {x : ObjId × Nat} (hx : x ∈ a k) : locate s x.1 = some k := by
  have hk := h.abs.lt hx
  rw [locate, h.nz]
  refine find_range hk ?_ ?_
  · rw [h.abs.lookup hk]; exact decide_eq_true (List.mem_map_of_mem hx)
  · intro j hj
    rw [h.abs.lookup (by omega)]
    refine decide_eq_false ?_
    intro hm
    obtain ⟨y, hy, e⟩ := List.mem_map.1 hm
    have := h.abs.uniq j k y x hy hx e
    omega

theorem locate_miss (h : Holds cs md n a s) {id : ObjId} (hn : id ∉ (cached s).ids) : locate s id = none := by
  rw [locate, h.nz]
  refine find_range_none ?_
  intro j hj
  rw [h.abs.lookup hj]
  refine decide_eq_false ?_
  intro hm
  obtain ⟨y, hy, e⟩ := List.mem_map.1 hm
  exact h.absent hn j y hy e

theorem find_miss (h : Holds cs md n a s) {r : Req} (hn : r.id ∉ (cached s).ids) (u : Bool) : find s r u = .ok (false, s) := by
  rw [find, h.locate_miss hn]

theorem find_false (h : Holds cs md n a s) (r : Req) : find s r false = .ok (decide (r.id ∈ (cached s).ids), s) := by
  by_cases hm : r.id ∈ (cached s).ids
  · obtain ⟨k, y, hy, e⟩ := (h.ids _).1 hm
    rw [decide_eq_true hm, find, ← e, h.locate_hit hy]; rfl
  · rw [decide_eq_false hm, h.find_miss hm]

theorem charge_filter_le (f : ObjId × Nat → Bool) (c : Contents) : charge 0 (c.filter f) ≤ charge 0 c := by
  induction c with
  | nil => exact Nat.le_refl _
  | cons y c ih =>
    by_cases hy : f y = true
    · rw [List.filter_cons_of_pos hy]; simp only [charge]; omega
    · rw [List.filter_cons_of_neg hy]; simp only [charge]; omega

/-- A hit. -/
theorem find_hit (h : Holds cs md n a s) {k : Nat} {x : ObjId × Nat} (hx : x ∈ a k) {r : Req} (hid : r.id = x.1) (hsz : r.size + md = x.2) :
    ∃ s', find s r true = .ok (true, s') ∧ Holds cs md n (fifoHit (lim cs n) n a k x) s' ∧ Sub (fifoHit (lim cs n) n a k x) a ∧ s'.base = s.base := by
  have hk := h.abs.lt hx
  rw [find, hid, h.locate_hit hx]
  simp only [Bool.true_eq_false, if_false, h.nz]
  by_cases htop : k + 1 = n
  · simp only [if_pos htop, fifoHit]
    exact ⟨s, rfl, h, Sub.refl a, rfl⟩
  · simp only [if_neg htop, fifoHit]
    obtain ⟨q, h1, h2⟩ := h.abs.remove hx
    have hk1 : k + 1 < n := by omega
    have hnk : k + 1 ≠ k := by omega
    have hxL : x.2 ≤ cs / n := Nat.le_trans (charge_mem hx) (h.within k)
    have habs := h.abs.absent_without hx
    have hwc : charge 0 (without x.1 (a k)) ≤ cs / n := by
      have : charge 0 (without x.1 (a k)) ≤ charge 0 (a k) := charge_filter_le _ _
      exact Nat.le_trans this (h.within k)
    obtain ⟨g1, b1, k1, k2, k3, k4⟩ := makeRoom_spec (cool_spec (cs / n) md n (k + 1) hk1) (x := x) (size := r.size) hsz.symm hxL hk1
      (s.seg (k + 1)).q.length h2 (within_put h.within hwc) (by rw [put_ne _ hnk, h.abs.len hk1]; exact Nat.le_refl _)
    obtain ⟨m, hm1, hm2⟩ := h.abs.small hx
    have hu : r.size < u32 := by unfold u32 at *; omega
    obtain ⟨q', k5, k6⟩ := k2.insert (k := k + 1) (r := r) hk1 (by rw [hid]; exact habs.sub k3)
      (by rw [SizeOk, Nat.mod_eq_of_lt hu, hsz]; exact hm2)
    have hxx : (r.id, r.size % u32 + md) = x := by rw [Nat.mod_eq_of_lt hu, hsz, hid]
    rw [hxx, k4] at k6
    have hlook : ((upd s.seg k q (k + 1)).base.lookup x.1).isSome = false := by
      rw [h2.lookup hk1]
      refine decide_eq_false ?_
      intro hm
      obtain ⟨y, hy, e⟩ := List.mem_map.1 hm
      exact habs (k + 1) y hy e
    have hsub1 : Sub (put a k (without x.1 (a k))) a := sub_put (fun y hy => List.mem_of_mem_filter hy)
    rw [put_ne _ hnk] at k6 k4
    refine ⟨{ s with seg := upd g1 (k + 1) q' }, ?_, h.seg k6 ?_, ?_, rfl⟩
    · rw [h1, Res.bind_ok]
      simp only [hlook, Bool.false_eq_true, if_false, h.mdz]
      rw [k1, Res.bind_ok, k5, Res.bind_ok, h.nz]
    · apply within_settle
      intro j hj
      rw [put_ne _ hj]
      exact within_put h.within hwc j
    · rw [← k4]
      exact sub_cons (i := k) (k3.trans hsub1) hx
theorem lowest_some (h : Holds cs md n a s) {k : Nat} (hk : k < n) (hp : 0 < charge 0 (a k)) (hl : ∀ j, j < k → charge 0 (a j) = 0) : lowest s = some k := by
  rw [lowest, h.nz]
  refine find_range hk ?_ ?_
  · rw [h.abs.occ hk]; exact decide_eq_true (by omega)
  · intro j hj
    rw [h.abs.occ (by omega), hl j hj]; exact decide_eq_false (by omega)

theorem pos_lt (h : Holds cs md n a s) {k : Nat} (hp : 0 < charge 0 (a k)) : k < n := by
  obtain ⟨c, x, hc⟩ := last_of_pos hp
  exact h.abs.lt (k := k) (x := x) (by rw [hc]; simp)

/-- Eviction from a cache that holds bytes. -/
theorem evict (h : Holds cs md n a s) {i : Nat} (hp : 0 < charge 0 (a i)) :
    ∃ s' x k c, SLRUv0.evict s = .ok s' ∧ toEvict s = some x.1 ∧ k ≤ i ∧ 0 < charge 0 (a k) ∧ (∀ j, j < k → charge 0 (a j) = 0) ∧ a k = c ++ [x] ∧
      Holds cs md n (put a k c) s' ∧ s'.base = s.base ∧ Absent x.1 (put a k c) ∧ Sub (put a k c) a := by
  obtain ⟨k, h0, h1, h2⟩ := exists_first (P := fun k => 0 < charge 0 (a k)) hp
  have hk := h.pos_lt h1
  have hl : ∀ j, j < k → charge 0 (a j) = 0 := fun j hj => by have := h2 j hj; omega
  obtain ⟨c, x, hc⟩ := last_of_pos h1
  obtain ⟨o, q, t1, t2, t3, _, _, t4⟩ := h.abs.tail hc
  have hlow := h.lowest_some hk h1 hl
  have hcL : charge 0 c ≤ cs / n := by
    have := h.within k
    rw [hc, charge_append] at this; omega
  refine ⟨{ s with seg := upd s.seg k q }, x, k, c, ?_, ?_, h0, h1, hl, hc, h.seg t4 (within_put h.within hcL), rfl, h.abs.absent_tail hc,
    sub_put (by intro y hy; rw [hc]; exact List.mem_append_left _ hy)⟩
  · rw [SLRUv0.evict, hlow, Option.getD_some, t2, Res.bind_ok]
  · rw [toEvict, hlow]
    obtain ⟨l, r1, r2⟩ := h.abs.rep k hk
    simp only [r1.q]
    rw [← chg_ids md, ← r2, hc]
    simp [Contents.ids]

/-- The victim was cached and is gone, the rest stays. -/
theorem evict_perm {x : ObjId × Nat} {k : Nat} {c : Contents} {s' : State} (h : Holds cs md n a s) (hc : a k = c ++ [x]) (h' : Holds cs md n (put a k c) s') :
    (cached s).Perm ((x.1, x.2 - md) :: cached s') := by
  have hx : x ∈ a k := by rw [hc]; simp
  obtain ⟨m, e, _⟩ := h.abs.small hx
  have e2 : x.2 - md + md = x.2 := by omega
  have habs := h.abs.absent_tail hc
  refine (List.perm_ext_iff_of_nodup (h.nodup.of_map _) ?_).2 ?_
  · rw [List.nodup_cons]
    refine ⟨?_, h'.nodup.of_map _⟩
    intro hm
    obtain ⟨i, hi⟩ := (h'.mem _).1 hm
    exact habs i _ hi rfl
  · intro y
    rw [List.mem_cons, h.mem, h'.mem]
    constructor
    · rintro ⟨i, hi⟩
      by_cases ei : i = k
      · subst ei
        rw [hc] at hi
        rcases List.mem_append.1 hi with hi | hi
        · exact .inr ⟨i, by rw [put_self]; exact hi⟩
        · left
          simp only [List.mem_singleton] at hi
          rw [← hi]; exact Prod.ext rfl (by simp)
      · exact .inr ⟨i, by rw [put_ne _ ei]; exact hi⟩
    · rintro (rfl | ⟨i, hi⟩)
      · exact ⟨k, by show (x.1, x.2 - md + md) ∈ a k; rw [e2]; exact hx⟩
      · by_cases ei : i = k
        · subst ei; rw [put_self] at hi; exact ⟨i, by rw [hc]; exact List.mem_append_left _ hi⟩
        · rw [put_ne _ ei] at hi; exact ⟨i, hi⟩

/-- The second loop of an insertion empties segment 0 from its old end. -/
theorem insertLoop_spec (hn : 1 ≤ n) {r : Req} {x : ObjId × Nat} (hx : x.2 = r.size + md) (hL : x.2 ≤ cs / n) :
    ∀ (m : Nat) {s : State} {a : Spec.Segmented.Segs}, Holds cs md n a s → (a 0).length ≤ m →
      ∃ s' a', insertLoop r m s = .ok s' ∧ Holds cs md n a' s' ∧ Sub a' a ∧ s'.base = s.base ∧ charge 0 (a' 0) + x.2 ≤ cs / n ∧
        put a' 0 (x :: a' 0) = settle (lim cs n) 0 (put a 0 (x :: a 0)) := by
  intro m
  induction m with
  | zero =>
    intro s a h hm
    have h0 : a 0 = [] := List.eq_nil_of_length_eq_zero (by omega)
    have hfull : ¬ (charge 0 (a 0) + (r.size + md) > cs / n) := by rw [h0]; simp only [charge]; omega
    refine ⟨s, a, ?_, h, Sub.refl a, rfl, by omega, ?_⟩
    · unfold insertLoop
      rw [h.mdz, h.abs.full (by omega), decide_eq_false hfull]; rfl
    · rw [settle_of_le]
      rw [put_self]; simp only [charge, lim]; omega
  | succ m ih =>
    intro s a h hm
    unfold insertLoop
    rw [h.mdz, h.abs.full (by omega)]
    by_cases hfull : charge 0 (a 0) + (r.size + md) > cs / n
    · obtain ⟨s1, y, k, c, e1, _, e2, _, _, e3, e4, e5, _, e6⟩ := h.evict (i := 0) (by omega)
      obtain rfl : k = 0 := by omega
      obtain ⟨s', a', f1, f2, f3, f4, f5, f6⟩ := ih e4 (by
        rw [put_self]
        rw [e3, List.length_append] at hm
        simp only [List.length_cons, List.length_nil] at hm; omega)
      refine ⟨s', a', ?_, f2, f3.trans e6, f4.trans e5, f5, ?_⟩
      · simp only [decide_eq_true hfull, if_true, e1, Res.bind_ok]; exact f1
      · rw [f6]
        have := settle_down (L := cs / n) (a := a) (k := 0) (c := c) (x := x) (y := y) e3 (by omega)
        rw [down] at this
        exact this
    · refine ⟨s, a, ?_, h, Sub.refl a, rfl, by omega, ?_⟩
      · simp only [decide_eq_false hfull, Bool.false_eq_true, if_false]
      · rw [settle_of_le]
        rw [put_self]; simp only [charge, lim]; omega

theorem count_eq (h : Holds cs md n a s) : count s = (cached s).length := by
  rw [count, cached, h.nz]; exact sum_len h.abs n (Nat.le_refl n)

theorem seg_le_count (h : Holds cs md n a s) (k : Nat) : (a k).length ≤ count s := by
  rw [h.count_eq]
  have hsub : (a k).map (fun x => (x.1, x.2 - md)) ⊆ cached s := by
    intro y hy
    obtain ⟨x, hx, rfl⟩ := List.mem_map.1 hy
    obtain ⟨m, e, _⟩ := h.abs.small hx
    refine (h.mem _).2 ⟨k, ?_⟩
    have e2 : x.2 - md + md = x.2 := by omega
    show (x.1, x.2 - md + md) ∈ a k
    rw [e2]; exact hx
  have hnd : ((a k).map (fun x => (x.1, x.2 - md))).Nodup := by
    refine List.Nodup.of_map Prod.fst ?_
    rw [List.map_map]
    exact h.abs.nd k
  have := (List.subperm_of_subset hnd hsub).length_le
  rwa [List.length_map] at this

theorem insertAt_spec (h : Holds cs md n a s) {r : Req} {k : Nat} (hk : k < n) (hnew : Absent r.id a) (hu : r.size + md < u32)
    (hfit : charge 0 (a k) + (r.size + md) ≤ cs / n) :
    ∃ s', insertAt s r k = .ok s' ∧ Holds cs md n (put a k ((r.id, r.size + md) :: a k)) s' ∧ s'.base = s.base := by
  have hm : r.size % u32 = r.size := Nat.mod_eq_of_lt (by omega)
  obtain ⟨q, h1, h2⟩ := h.abs.insert hk hnew (by rw [SizeOk, hm]; exact hu)
  rw [hm] at h2
  refine ⟨{ s with seg := upd s.seg k q }, by rw [insertAt, h1, Res.bind_ok], h.seg h2 (within_put h.within ?_), rfl⟩
  simp only [charge]; omega

/-- An insertion. -/
theorem insert (h : Holds cs md n a s) (hn : 1 ≤ n) {r : Req} (hnew : Absent r.id a) (hu : r.size + md < u32) (hL : r.size + md ≤ cs / n) :
    ∃ s' k a1, SLRUv0.insert s r = .ok s' ∧ Target (lim cs n) n a (r.size + md) k ∧
      put a1 k ((r.id, r.size + md) :: a1 k) = settle (lim cs n) k (put a k ((r.id, r.size + md) :: a k)) ∧ Sub a1 a ∧
      Holds cs md n (put a1 k ((r.id, r.size + md) :: a1 k)) s' ∧ s'.base = s.base := by
  by_cases hroom : ∃ k, k < n ∧ charge 0 (a k) + (r.size + md) ≤ cs / n
  · obtain ⟨k0, hk0, hf0⟩ := hroom
    obtain ⟨k, hk, hf, hl⟩ := exists_first (P := fun k => charge 0 (a k) + (r.size + md) ≤ cs / n) hf0
    have hkn : k < n := by omega
    have hp : pick s r = some k := by
      rw [pick, h.nz]
      refine find_range hkn ?_ ?_
      · have hf' : ¬ (charge 0 (a k) + (r.size + md) > cs / n) := Nat.not_lt.2 hf
        rw [h.mdz, h.abs.full hkn, decide_eq_false hf']; rfl
      · intro j hj
        have := hl j hj
        rw [h.mdz, h.abs.full (by omega), decide_eq_true (by omega)]; rfl
    obtain ⟨s', h1, h2, h3⟩ := h.insertAt_spec hkn hnew hu hf
    refine ⟨s', k, a, ?_, .inl ⟨hkn, ?_, ?_⟩, ?_, Sub.refl a, h2, h3⟩
    · rw [SLRUv0.insert, hp]; exact h1
    · rw [bytes_eq_charge]; exact hf
    · intro j hj
      have := hl j hj
      rw [bytes_eq_charge]; show cs / n < _; omega
    · rw [settle_of_le]
      rw [put_self]; simp only [charge, lim]; omega
  · have hno : ∀ k, k < n → cs / n < charge 0 (a k) + (r.size + md) := by
      intro k hk
      exact Nat.lt_of_not_le (fun hf => hroom ⟨k, hk, hf⟩)
    have hp : pick s r = none := by
      rw [pick, h.nz]
      refine find_range_none ?_
      intro j hj
      have := hno j hj
      rw [h.mdz, h.abs.full hj, decide_eq_true (by omega)]; rfl
    obtain ⟨s1, a1, f1, f2, f3, f4, f5, f6⟩ := insertLoop_spec hn (x := (r.id, r.size + md)) rfl hL (count s) h (h.seg_le_count 0)
    obtain ⟨s', h1, h2, h3⟩ := f2.insertAt_spec (by omega) (hnew.sub f3) hu f5
    refine ⟨s', 0, a1, ?_, .inr ⟨rfl, ?_⟩, f6, f3, h2, h3.trans f4⟩
    · rw [SLRUv0.insert, hp]
      simp only [f1, Res.bind_ok]; exact h1
    · intro j hj
      rw [bytes_eq_charge]; exact hno j hj

theorem removeFrom_hit (h : Holds cs md n a s) {k : Nat} {x : ObjId × Nat} (hx : x ∈ a k) :
    ∃ s', Holds cs md n (put a k (without x.1 (a k))) s' ∧ s'.base = s.base ∧ ∀ m i, i ≤ k → k < i + m → i + m ≤ n → removeFrom s x.1 i m = .ok (true, s') := by
  obtain ⟨q, h1, h2⟩ := h.abs.remove hx
  refine ⟨{ s with seg := upd s.seg k q }, h.seg h2 (within_put h.within ?_), rfl, ?_⟩
  · exact Nat.le_trans (charge_filter_le _ _) (h.within k)
  · intro m
    induction m with
    | zero => intro i hi hm _; omega
    | succ m ih =>
      intro i hi hm hn
      rw [removeFrom]
      by_cases e : i = k
      · subst e
        rw [h1, Res.bind_ok]; rfl
      · rw [h.abs.remove_miss (by omega), Res.bind_ok]
        · simp only [Bool.false_eq_true, if_false]
          exact ih (i + 1) (by omega) (by omega) (by omega)
        · intro hm
          obtain ⟨y, hy, ey⟩ := List.mem_map.1 hm
          exact e (h.abs.uniq i k y x hy hx ey)

theorem removeFrom_miss (h : Holds cs md n a s) {id : ObjId} (hnew : Absent id a) : ∀ m i, i + m ≤ n → removeFrom s id i m = .ok (false, s) := by
  intro m
  induction m with
  | zero => intro i _; rfl
  | succ m ih =>
    intro i hi
    rw [removeFrom, h.abs.remove_miss (by omega), Res.bind_ok]
    · simp only [Bool.false_eq_true, if_false]
      exact ih (i + 1) (by omega)
    · intro hm
      obtain ⟨y, hy, ey⟩ := List.mem_map.1 hm
      exact hnew i y hy ey

/-- A removal. -/
theorem remove (h : Holds cs md n a s) (id : ObjId) :
    ∃ s' a', SLRUv0.remove s id = .ok (decide (id ∈ (cached s).ids), s') ∧ Holds cs md n a' s' ∧ s'.base = s.base ∧ ∀ k, a' k = without id (a k) := by
  by_cases hm : id ∈ (cached s).ids
  · obtain ⟨k, x, hx, rfl⟩ := (h.ids _).1 hm
    obtain ⟨s', h1, h2, h3⟩ := h.removeFrom_hit hx
    have hk := h.abs.lt hx
    refine ⟨s', _, ?_, h1, h2, ?_⟩
    · rw [SLRUv0.remove, decide_eq_true hm, h.nz]; exact h3 n 0 (by omega) (by omega) (by omega)
    · intro j
      by_cases e : j = k
      · subst e; rw [put_self]
      · rw [put_ne _ e, without, List.filter_eq_self.2]
        intro y hy
        have : y.1 ≠ x.1 := fun ey => e (h.abs.uniq j k y x hy hx ey)
        simpa using this
  · refine ⟨s, a, ?_, h, rfl, ?_⟩
    · rw [SLRUv0.remove, decide_eq_false hm, h.nz]; exact h.removeFrom_miss (h.absent hm) n 0 (by omega)
    · intro j
      rw [without, List.filter_eq_self.2]
      intro y hy
      have := h.absent hm j y hy
      simpa using this

end Holds

theorem inv_init (sz : ObjId → Nat) (cs md n : Nat) (p : Perms) (adm : Adm) : Inv sz cs md n p (init cs md adm n) := by
  refine ⟨fun _ => [], ⟨rfl, rfl, rfl, ⟨fun k _ => ⟨[], Rep.init (cs / n) md adm, rfl⟩, fun _ _ => rfl, ?_⟩, fun _ => by simp [charge]⟩, ?_⟩
  · intro i j x y hx; cases hx
  · intro k x hx; cases hx

theorem canInsert_snd (s : State) (r : Req) : (canInsert s r).2.seg = s.seg ∧ (canInsert s r).2.n = s.n ∧
    (canInsert s r).2.base.cacheSize = s.base.cacheSize ∧ (canInsert s r).2.base.objMd = s.base.objMd := by
  refine ⟨rfl, rfl, ?_, ?_⟩ <;>
  · simp only [canInsert, Base.canInsertDefault]
    split
    · rfl
    · split <;> rfl

theorem Holds.canInsert (h : Holds cs md n a s) (r : Req) : Holds cs md n a (SLRUv0.canInsert s r).2 := by
  obtain ⟨h1, h2, h3, h4⟩ := canInsert_snd s r
  exact ⟨h3.trans h.csz, h4.trans h.mdz, h2.trans h.nz, by rw [h1]; exact h.abs, h.within⟩

theorem cached_canInsert (s : State) (r : Req) : cached (canInsert s r).2 = cached s := by
  obtain ⟨h1, h2, _, _⟩ := canInsert_snd s r
  rw [cached, cached, h1, h2]

theorem Holds.bump (h : Holds cs md n a s) : Holds cs md n a (algo.bump s) := ⟨h.csz, h.mdz, h.nz, h.abs, h.within⟩

theorem Holds.canInsert_fst (h : Holds cs md n a s) (hn : 1 ≤ n) (r : Req) :
    (SLRUv0.canInsert s r).1 = (admitsBase s.base r && decide (r.size + md ≤ cs / n)) := by
  simp only [SLRUv0.canInsert, Base.canInsertDefault, admitsBase, h.csz, h.mdz, h.abs.csz (show 0 < n by omega)]
  by_cases h0 : (s.base.adm.admit r).1 = false
  · simp [h0]
  · have h0' : (s.base.adm.admit r).1 = true := by simpa using h0
    by_cases h1 : r.size + md > cs
    · simp [h0', h1]; omega
    · simp [h0', h1, Nat.not_lt.1 h1]

theorem Holds.occ (h : Holds cs md n a s) : algo.occ s = (charge md (cached s) : Nat) := by
  show ((List.range s.n).map _).sum = _
  rw [cached, h.nz]; exact sum_occ h.abs n (Nat.le_refl n)

theorem Holds.cap (h : Holds cs md n a s) : algo.occ s ≤ (cs : Int) := by
  show ((List.range s.n).map _).sum ≤ _
  rw [h.nz]
  have h1 := sum_within h.abs h.within n (Nat.le_refl n)
  have h2 : n * (cs / n) ≤ cs := Nat.mul_div_le cs n
  omega

theorem charge_all_pos {md : Nat} {c : Contents} (h : 0 < charge md c) : ∃ x ∈ c, 0 < x.2 + md := by
  induction c with
  | nil => simp [charge] at h
  | cons x c ih =>
    simp only [charge] at h
    by_cases hx : 0 < x.2 + md
    · exact ⟨x, by simp, hx⟩
    · obtain ⟨y, hy, hp⟩ := ih (by omega)
      exact ⟨y, by simp [hy], hp⟩

theorem Holds.pos_of_mem {x : ObjId × Nat} (h : Holds cs md n a s) (hx : x ∈ cached s) (hp : 0 < x.2 + md) : ∃ k, 0 < charge 0 (a k) := by
  obtain ⟨k, hk⟩ := (h.mem x).1 hx
  exact ⟨k, Nat.lt_of_lt_of_le hp (charge_mem hk)⟩

theorem Holds.pos_of_must {r : Req} (h : Holds cs md n a s) (hL : r.size + md ≤ cs / n) (hm : algo.mustEvict s r = true) : ∃ k, 0 < charge 0 (a k) := by
  have h1 : cs / n ≤ cs := Nat.div_le_self cs n
  simp only [Algo.mustEvict, decide_eq_true_eq] at hm
  rw [h.occ, show algo.md s = md from h.mdz, show algo.cacheSize s = cs from h.csz] at hm
  obtain ⟨x, hx, hp⟩ := charge_all_pos (md := md) (c := cached s) (by omega)
  exact h.pos_of_mem hx hp

variable {sz : ObjId → Nat} {p : Perms}

theorem Steady.u32 {L : Nat} {r : Req} (h : Steady sz L md p r) (hL : r.size + md ≤ L) : r.size + md < u32 := by
  have := (h.2.1 hL).1
  simpa [Verif.u32] using this

theorem insert_inv (hn : 1 ≤ n) (hi : Inv sz cs md n p s) {r : Req} (hok : Steady sz (cs / n) md p r) (hL : r.size + md ≤ cs / n) (hnew : r.id ∉ (cached s).ids) :
    ∃ s', SLRUv0.insert s r = .ok s' ∧ Inv sz cs md n p s' ∧ (cached s').Subperm ((r.id, r.size % u32) :: cached s) := by
  obtain ⟨a, h, hs⟩ := hi
  have hu := Steady.u32 hok hL
  obtain ⟨s', k, a1, h1, _, _, h4, h5, _⟩ := h.insert hn (h.absent hnew) hu hL
  have hmem : ∀ j y, y ∈ put a1 k ((r.id, r.size + md) :: a1 k) j → y = (r.id, r.size + md) ∨ ∃ i, y ∈ a i := by
    intro j y hy
    by_cases e : j = k
    · subst e; rw [put_self] at hy
      rcases List.mem_cons.1 hy with rfl | hy
      · exact .inl rfl
      · exact .inr (h4 j y hy)
    · rw [put_ne _ e] at hy; exact .inr (h4 j y hy)
  refine ⟨s', h1, ⟨_, h5, ?_⟩, ?_⟩
  · intro j y hy
    rcases hmem j y hy with rfl | ⟨i, hi⟩
    · exact ⟨by rw [hok.1], (hok.2.1 hL).2⟩
    · exact hs i y hi
  · refine List.subperm_of_subset (h5.nodup.of_map _) ?_
    intro x hx
    obtain ⟨j, hj⟩ := (h5.mem x).1 hx
    rcases hmem j _ hj with e | ⟨i, hi⟩
    · injection e with e1 e2
      rw [Nat.mod_eq_of_lt (by omega)]
      refine List.mem_cons.2 (.inl (Prod.ext e1 ?_))
      simpa using e2
    · exact List.mem_cons_of_mem _ ((h.mem x).2 ⟨i, hi⟩)

theorem contract (hn : 1 ≤ n) (hp : p.upd = false) :
    Contract algo cached (Inv sz cs md n p) (fun _ r => r.size + md ≤ cs / n) (fun s => (cached s).length) cs md p (Steady sz (cs / n) md p) where
  csz := fun ⟨_, h, _⟩ => h.csz
  mdz := fun ⟨_, h, _⟩ => h.mdz
  nodup := fun ⟨_, h, _⟩ => h.nodup
  occ := fun ⟨_, h, _⟩ => h.occ
  nObj := by
    rintro s ⟨a, h, _⟩
    show ((List.range s.n).map _).sum = _
    rw [cached, h.nz]; exact sum_nObj h.abs n (Nat.le_refl n)
  cap := fun ⟨_, h, _⟩ => h.cap
  bump := fun ⟨a, h, hs⟩ => ⟨⟨a, h.bump, hs⟩, rfl⟩
  findF := fun _ s r ⟨_, h, _⟩ => h.find_false r
  findHit := by
    rintro s r ⟨a, h, hs⟩ hin hf
    rcases hf with hf | ⟨hok, _⟩
    · rw [hp] at hf; cases hf
    · obtain ⟨k, x, hx, e⟩ := (h.ids _).1 hin
      obtain ⟨s', h1, h2, h3, _⟩ := h.find_hit hx e.symm (by rw [(hs k x hx).1, hok.1, e])
      exact ⟨s', h1, ⟨_, h2, hs.sub h3⟩, h.sub h2 h3⟩
  findMiss := by
    rintro s r ⟨a, h, hs⟩ hin _
    refine ⟨s, h.find_miss hin true, ⟨a, h, hs⟩, List.Perm.refl _, ⟨a, h.canInsert r, hs⟩, ?_, ?_⟩
    · show (cached (canInsert s r).2).Perm _
      rw [cached_canInsert]
    · intro hc _
      have : (SLRUv0.canInsert s r).1 = true := hc
      rw [h.canInsert_fst hn] at this
      simp only [Bool.and_eq_true, decide_eq_true_eq] at this
      exact this.2
  fuel := by
    rintro s ⟨a, h, _⟩
    show _ ≤ count s
    rw [h.count_eq]; exact Nat.le_refl _
  evictLoop := by
    rintro s r ⟨a, h, hs⟩ hok hL hnew hm
    obtain ⟨i, hi⟩ := h.pos_of_must hL hm
    obtain ⟨s', x, k, c, h1, _, _, _, _, h3, h4, _, _, h6⟩ := h.evict hi
    refine ⟨s', h1, ⟨_, h4, hs.sub h6⟩, hL, h.sub h4 h6, ?_⟩
    have := (h.evict_perm h3 h4).length_eq
    rw [List.length_cons] at this; omega
  insert := fun r hi hok hL hnew _ => insert_inv hn hi hok hL hnew
  userInsert := fun hpi s r hi hok hnew _ => insert_inv hn hi hok (hok.2.2 hpi) hnew
  remove := by
    rintro _ s id ⟨a, h, hs⟩
    obtain ⟨s', a', h1, h2, _, h3⟩ := h.remove id
    have hsub : Sub a' a := by
      intro j y hy
      rw [h3 j] at hy
      exact ⟨j, List.mem_of_mem_filter hy⟩
    exact ⟨_, s', h1, ⟨_, h2, hs.sub hsub⟩, h.sub h2 hsub⟩
  evict := by
    rintro hpe s r ⟨a, h, hs⟩ hne
    obtain ⟨x, hx⟩ := List.exists_mem_of_ne_nil _ hne
    obtain ⟨k, hk⟩ := (h.mem x).1 hx
    obtain ⟨i, hi⟩ := h.pos_of_mem hx ((hs k _ hk).2 hpe)
    obtain ⟨s', y, j, c, h1, _, _, _, _, h3, h4, _, _, h6⟩ := h.evict hi
    exact ⟨s', h1, ⟨_, h4, hs.sub h6⟩, h.sub h4 h6⟩

/-- The objects on the list of each segment, most recent first, with the bytes they are charged. -/
def segs (s : State) : Spec.Segmented.Segs := fun k => if k < s.n then chg s.base.objMd (s.seg k).objs else []

theorem Holds.segs (h : Holds cs md n a s) : segs s = a := by
  funext k
  rw [SLRUv0.segs, h.nz, h.mdz]
  by_cases hk : k < n
  · obtain ⟨l, h1, h2⟩ := h.abs.rep k hk
    rw [if_pos hk, h1.objs, h2]
  · rw [if_neg hk, h.abs.out k (by omega)]

theorem loop_spec {r : Req} (hL : r.size + md ≤ cs / n) : ∀ (m : Nat) {s : State} {a : Spec.Segmented.Segs}, Holds cs md n a s → (cached s).length ≤ m →
    ∃ s' vs a', algo.evictLoop r m s = .ok s' ∧ Holds cs md n a' s' ∧ EvictsAll n a vs a' ∧ Sub a' a ∧ s'.base = s.base ∧
      (∀ us v, vs = us ++ [v] → v.2 + charge md (cached s') + r.size + md > cs) ∧ (vs = [] → s' = s) := by
  intro m
  induction m with
  | zero =>
    intro s a h hm
    have h0 : cached s = [] := List.eq_nil_of_length_eq_zero (by omega)
    have hme : algo.mustEvict s r = false := by
      cases hc : algo.mustEvict s r with
      | false => rfl
      | true =>
        simp only [Algo.mustEvict, decide_eq_true_eq] at hc
        rw [h.occ, show algo.md s = md from h.mdz, show algo.cacheSize s = cs from h.csz, h0] at hc
        simp only [charge] at hc
        have h1 : cs / n ≤ cs := Nat.div_le_self cs n
        omega
    exact ⟨s, [], a, by simp [Algo.evictLoop, hme], h, .none a, Sub.refl a, rfl, by simp, fun _ => rfl⟩
  | succ m ih =>
    intro s a h hm
    cases hme : algo.mustEvict s r with
    | false => exact ⟨s, [], a, by simp [Algo.evictLoop, hme], h, .none a, Sub.refl a, rfl, by simp, fun _ => rfl⟩
    | true =>
      obtain ⟨i, hi⟩ := h.pos_of_must hL hme
      obtain ⟨s1, x, k, c, h1, _, _, hp, hl, h3, h4, h5, _, h6⟩ := h.evict hi
      have hperm := h.evict_perm h3 h4
      have hlen := hperm.length_eq
      rw [List.length_cons] at hlen
      obtain ⟨s', vs, a', f1, f2, f3, f4, f5, f6, f7⟩ := ih h4 (by omega)
      refine ⟨s', x :: vs, a', ?_, f2, .one ⟨k, c, h.pos_lt hp, ?_, ?_, h3, rfl⟩ f3, f4.trans h6, f5.trans h5, ?_, by simp⟩
      · have h1' : algo.evict s r = .ok s1 := h1
        simp [Algo.evictLoop, hme, h1', f1]
      · rw [bytes_eq_charge]; exact hp
      · intro j hj
        rw [bytes_eq_charge]; exact hl j hj
      · intro us v huv
        rcases List.eq_nil_or_concat vs with rfl | ⟨ws, w, rfl⟩
        · obtain ⟨rfl, rfl⟩ : us = [] ∧ v = x := by
            rcases us with _ | ⟨u, us⟩
            · simp only [List.nil_append, List.cons.injEq, and_true] at huv; exact ⟨rfl, huv.symm⟩
            · simp at huv
          cases f3
          have hcs : cached s' = cached s1 := by rw [f7 rfl]
          simp only [Algo.mustEvict, decide_eq_true_eq] at hme
          rw [h.occ, show algo.md s = md from h.mdz, show algo.cacheSize s = cs from h.csz, charge_perm hperm] at hme
          simp only [charge] at hme
          obtain ⟨mm, e, _⟩ := h.abs.small (k := k) (x := v) (by rw [h3]; simp)
          rw [hcs]; omega
        · rw [List.concat_eq_append, ← List.cons_append] at huv
          obtain ⟨_, e⟩ := List.append_inj' huv rfl
          simp only [List.cons.injEq, and_true] at e
          exact f6 ws v (by rw [List.concat_eq_append, e])

theorem cached_init (cs md n : Nat) (adm : Adm) : cached (init cs md adm n) = [] := by
  refine List.eq_nil_iff_forall_not_mem.2 ?_
  intro x hx
  obtain ⟨a, h, _⟩ := inv_init (fun _ => 0) cs md n {} adm
  simp only [cached, all, List.mem_flatMap] at hx
  obtain ⟨k, _, hk⟩ := hx
  cases hk

/-- The contents after a removal. -/
theorem Holds.remove_perm {a' : Spec.Segmented.Segs} {s' : State} {id : ObjId} (h : Holds cs md n a s) (h' : Holds cs md n a' s')
    (e : ∀ k, a' k = without id (a k)) : (cached s').Perm ((cached s).filter (fun x => x.1 ≠ id)) := by
  refine (List.perm_ext_iff_of_nodup (h'.nodup.of_map _) ((h.nodup.of_map _).filter _)).2 ?_
  intro x
  rw [h'.mem, List.mem_filter, h.mem]
  simp only [e, without, List.mem_filter]
  constructor
  · rintro ⟨k, h1, h2⟩; exact ⟨⟨k, h1⟩, h2⟩
  · rintro ⟨⟨k, h1⟩, h2⟩; exact ⟨k, h1, h2⟩

/-- A get that hits. -/
theorem get_hits (hi : Inv sz cs md n p s) {k : Nat} {x : ObjId × Nat} (hx : x ∈ segs s k) {r : Req} (hid : r.id = x.1) (hsz : r.size = sz r.id) :
    ∃ s', algo.get s r = .ok (true, s') ∧ segs s' = fifoHit (lim cs n) n (segs s) k x ∧ (cached s').Subperm (cached s) := by
  obtain ⟨a, h, hs⟩ := hi
  rw [h.segs] at hx ⊢
  obtain ⟨s', h1, h2, h3, _⟩ := h.bump.find_hit hx hid (by rw [(hs k x hx).1, hsz, hid])
  exact ⟨s', get_hit h1, h2.segs, h.sub h2 h3⟩

theorem get_rejected (hn : 1 ≤ n) (hi : Inv sz cs md n p s) {r : Req} (hnc : r.id ∉ (cached s).ids)
    (ha : (admitsBase s.base r && decide (r.size + md ≤ cs / n)) = false) :
    ∃ s', algo.get s r = .ok (false, s') ∧ s'.seg = s.seg ∧ s'.n = s.n := by
  obtain ⟨a, h, hs⟩ := hi
  have h1 : algo.find (algo.bump s) r true = .ok (false, algo.bump s) := h.bump.find_miss (r := r) hnc true
  have h2 : (SLRUv0.canInsert (algo.bump s) r).1 = false := by rw [h.bump.canInsert_fst hn]; exact ha
  have h3 : algo.canInsert (algo.bump s) r = (false, (SLRUv0.canInsert (algo.bump s) r).2) := Prod.ext h2 rfl
  have h4 := canInsert_snd (algo.bump s) r
  exact ⟨_, get_reject h1 h3, h4.1, h4.2.1⟩

/-- A get that misses and is admitted. -/
theorem get_admitted (hn : 1 ≤ n) (hi : Inv sz cs md n p s) {r : Req} (hok : Steady sz (cs / n) md p r) (hnc : r.id ∉ (cached s).ids)
    (ha : (admitsBase s.base r && decide (r.size + md ≤ cs / n)) = true) :
    ∃ s' vs a1 k, algo.get s r = .ok (false, s') ∧ EvictsAll n (segs s) vs a1 ∧ Target (lim cs n) n a1 (r.size + md) k ∧
      segs s' = settle (lim cs n) k (put a1 k ((r.id, r.size + md) :: a1 k)) ∧
      (∀ us v, vs = us ++ [v] → v.2 + ((List.range n).map (fun k => charge 0 (a1 k))).sum + r.size + md > cs) ∧
      (r.id, r.size) ∈ cached s' := by
  obtain ⟨a, h, hs⟩ := hi
  rw [h.segs]
  have hL : r.size + md ≤ cs / n := by
    simp only [Bool.and_eq_true, decide_eq_true_eq] at ha; exact ha.2
  have h1 : algo.find (algo.bump s) r true = .ok (false, algo.bump s) := h.bump.find_miss (r := r) hnc true
  have h2 : (SLRUv0.canInsert (algo.bump s) r).1 = true := by rw [h.bump.canInsert_fst hn]; exact ha
  have h3 : algo.canInsert (algo.bump s) r = (true, (SLRUv0.canInsert (algo.bump s) r).2) := Prod.ext h2 rfl
  have h4 := h.bump.canInsert r
  obtain ⟨s1, vs, a1, f1, f2, f3, f4, f5, f6, _⟩ := loop_spec (r := r) hL (algo.fuel (SLRUv0.canInsert (algo.bump s) r).2) h4
    (by show _ ≤ count _; rw [h4.count_eq]; exact Nat.le_refl _)
  obtain ⟨s', k, a2, g1, g2, g3, g4, g5, _⟩ := f2.insert hn ((h.absent hnc).sub f4) (Steady.u32 hok hL) hL
  refine ⟨s', vs, a1, k, get_accept h1 h3 f1 g1, f3, g2, by rw [g5.segs, g3], ?_, ?_⟩
  · intro us v huv
    have := f6 us v huv
    have e : charge md (cached s1) = ((List.range n).map (fun k => charge 0 (a1 k))).sum := by
      have e1 := sum_occ f2.abs n (Nat.le_refl n)
      have e2 : ((List.range n).map (fun k => (s1.seg k).base.occ)).sum = ((List.range n).map (fun k => ((charge 0 (a1 k) : Nat) : Int))).sum := by
        congr 1
        refine List.map_congr_left ?_
        intro k hk
        exact f2.abs.occ (List.mem_range.1 hk)
      rw [e2] at e1
      rw [cached, f2.nz]
      have e3 : ∀ (l : List Nat), ((l.map (fun k => ((charge 0 (a1 k) : Nat) : Int))).sum) = (((l.map (fun k => charge 0 (a1 k))).sum : Nat) : Int) := by
        intro l
        induction l with
        | nil => rfl
        | cons x l ih => simp only [List.map_cons, List.sum_cons, ih]; omega
      rw [e3] at e1
      omega
    rw [← e]; omega
  · exact (g5.mem _).2 ⟨k, by rw [put_self]; exact List.mem_cons_self⟩

theorem evict_inv (hi : Inv sz cs md n p s) {i : Nat} (hb : 0 < charge 0 (segs s i)) :
    ∃ s' x, SLRUv0.evict s = .ok s' ∧ toEvict s = some x.1 ∧ EvictsLowest n (segs s) x (segs s') ∧ (cached s).Perm ((x.1, x.2 - md) :: cached s') := by
  obtain ⟨a, h, hs⟩ := hi
  rw [h.segs] at hb ⊢
  obtain ⟨s', x, k, c, h1, h2, _, h3, h4, h5, h6, _⟩ := h.evict hb
  refine ⟨s', x, h1, h2, ⟨k, c, h.pos_lt h3, ?_, ?_, h5, h6.segs⟩, h.evict_perm h5 h6⟩
  · rw [bytes_eq_charge]; exact h3
  · intro j hj
    rw [bytes_eq_charge]; exact h4 j hj

end
end Verif.SLRUv0
