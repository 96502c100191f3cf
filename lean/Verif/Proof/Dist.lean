import Verif.Profiler.Dist
import Verif.Spec.Dist
import Verif.Proof.Splay
import Verif.Proof.Recency
import Mathlib.Data.List.Perm.Basic
import Mathlib.Data.List.Nodup
/-! # The distance profilers: proofs -/

namespace Verif.Dist
open Verif.Splay Verif.Spec

/-! ## Last positions -/

theorem len_sinceLast {pre : List ObjId} {x} (h : x ∈ pre) : (sinceLast x pre).length + 1 ≤ pre.length := by
  induction pre using List.reverseRecOn with
  | nil => simp at h
  | append_singleton pre z ih =>
    by_cases hz : z = x
    · subst hz; rw [sinceLast_concat_self]; simp
    · rw [sinceLast_concat_ne hz]
      have := ih (by simpa [Ne.symm hz] using h)
      simp; omega

theorem lastPos_self (pre : List ObjId) (x) : lastPos (pre ++ [x]) x = pre.length := by
  simp [lastPos, sinceLast_concat_self]

theorem lastPos_ne {pre : List ObjId} {x z} (hz : z ≠ x) : lastPos (pre ++ [z]) x = lastPos pre x := by
  simp [lastPos, sinceLast_concat_ne hz]; omega

theorem lastPos_lt {pre : List ObjId} {x} (h : x ∈ pre) : lastPos pre x < pre.length := by
  have := len_sinceLast h
  unfold lastPos; omega

theorem at_lastPos {pre : List ObjId} {x} (h : x ∈ pre) : pre[lastPos pre x]? = some x := by
  induction pre using List.reverseRecOn with
  | nil => simp at h
  | append_singleton pre z ih =>
    by_cases hz : z = x
    · subst hz; rw [lastPos_self]; simp
    · have hx : x ∈ pre := by simpa [Ne.symm hz] using h
      rw [lastPos_ne hz, List.getElem?_append_left (lastPos_lt hx)]
      exact ih hx

theorem lastPos_inj {pre : List ObjId} {x y} (hx : x ∈ pre) (hy : y ∈ pre) (h : lastPos pre x = lastPos pre y) : x = y := by
  have h1 := at_lastPos hx
  rw [h, at_lastPos hy] at h1
  simpa using h1.symm

theorem lt_lastPos {pre : List ObjId} {x y} (hx : x ∈ pre) (hy : y ∈ pre) : lastPos pre x < lastPos pre y ↔ y ∈ sinceLast x pre := by
  induction pre using List.reverseRecOn with
  | nil => simp at hx
  | append_singleton pre z ih =>
    by_cases hzx : z = x
    · subst hzx
      rw [sinceLast_concat_self, lastPos_self]
      have := lastPos_lt hy
      simp at this ⊢; omega
    · have hx' : x ∈ pre := by simpa [Ne.symm hzx] using hx
      rw [sinceLast_concat_ne hzx, lastPos_ne hzx]
      by_cases hzy : z = y
      · subst hzy
        rw [lastPos_self]
        simp [lastPos_lt hx']
      · have hy' : y ∈ pre := by simpa [Ne.symm hzy] using hy
        rw [lastPos_ne hzy, ih hx' hy']
        simp [Ne.symm hzy]

theorem mem_tail_iff {pre : List ObjId} {x} : x ∈ pre.tail ↔ x ∈ pre ∧ lastPos pre x ≠ 0 := by
  induction pre using List.reverseRecOn with
  | nil => simp
  | append_singleton pre z ih =>
    cases pre with
    | nil =>
      simp only [List.nil_append, List.tail_cons, List.not_mem_nil, false_iff, List.mem_singleton]
      rintro ⟨rfl, h⟩
      exact h (lastPos_self [] x)
    | cons a pre =>
      have ht : ((a :: pre) ++ [z]).tail = (a :: pre).tail ++ [z] := by simp
      rw [ht, List.mem_append, List.mem_append, List.mem_singleton, ih]
      by_cases hz : z = x
      · subst hz
        rw [lastPos_self]; simp
      · rw [lastPos_ne hz]
        have : x ≠ z := Ne.symm hz
        simp [this]

theorem sinceLast_subset {pre : List ObjId} {x y} (h : y ∈ sinceLast x pre) : y ∈ pre := by
  unfold sinceLast at h
  rw [List.mem_reverse] at h
  exact List.mem_reverse.1 ((List.takeWhile_sublist _).subset h)

/-! ## The invariant -/

structure Inv (s : St) (pre : List ObjId) : Prop where
  good : GoodTree s.tree
  tbl : ∀ y, s.tbl y = if y ∈ pre then lastPos pre y else 0
  keys : ∀ k : Int, k ∈ keysOf s.tree ↔ (k = 0 ∧ pre ≠ []) ∨ ∃ y ∈ pre, k = (lastPos pre y : Int) ∧ 0 < lastPos pre y

theorem inv_init : Inv .init [] := ⟨good_nil, fun y => rfl, fun k => by simp [St.init, keysOf]⟩

theorem tbl_put {s : St} {pre : List ObjId} (h : Inv s pre) (id : ObjId) (y) :
    (s.tbl.put id pre.length) y = if y ∈ pre ++ [id] then lastPos (pre ++ [id]) y else 0 := by
  unfold Table.put
  by_cases hy : y = id
  · subst hy; simp [lastPos_self]
  · rw [if_neg hy, h.tbl y, lastPos_ne (Ne.symm hy)]
    simp [hy]

/-- the number of keys above that of `x` -/
theorem count_above {s : St} {pre : List ObjId} (h : Inv s pre) {x} (hx : x ∈ pre) (h0 : lastPos pre x ≠ 0) :
    (keysOf s.tree).countP (fun k => decide ((lastPos pre x : Int) < k)) = (sinceLast x pre).dedup.length := by
  rw [List.countP_eq_length_filter]
  have hp : ((keysOf s.tree).filter (fun k => decide ((lastPos pre x : Int) < k))).Perm
      ((sinceLast x pre).dedup.map (fun y => (lastPos pre y : Int))) := by
    refine (List.perm_ext_iff_of_nodup ?_ ?_).2 ?_
    · exact (h.good.sorted.imp (fun h => by omega)).filter _
    · refine List.Nodup.map_on ?_ (List.nodup_dedup _)
      intro y hy z hz e
      exact lastPos_inj (sinceLast_subset (List.mem_dedup.1 hy)) (sinceLast_subset (List.mem_dedup.1 hz)) (by omega)
    · intro k
      rw [List.mem_filter, h.keys, List.mem_map]
      constructor
      · rintro ⟨⟨rfl, _⟩ | ⟨y, hy, rfl, hy0⟩, hlt⟩
        · simp at hlt; omega
        · refine ⟨y, List.mem_dedup.2 ((lt_lastPos hx hy).1 (by simpa using hlt)), rfl⟩
      · rintro ⟨y, hy, rfl⟩
        have hs := List.mem_dedup.1 hy
        have hy' := sinceLast_subset hs
        have := (lt_lastPos hx hy').2 hs
        exact ⟨Or.inr ⟨y, hy', rfl, by omega⟩, by simpa using this⟩
  rw [hp.length_eq, List.length_map]

/-- what is reported for a request of `x` after `pre`: the stack distance, but never for an object whose only access was the very first request -/
def reported (pre : List ObjId) (x : ObjId) : Int := if x ∈ pre.tail then orMinus (stackDistance pre x) else -1

theorem reported_eq {pre : List ObjId} {x} (h : x ∈ pre.tail) : reported pre x = ((sinceLast x pre).dedup.length : Int) := by
  have hx := (mem_tail_iff.1 h).1
  simp [reported, h, stackDistance, hx, orMinus]

theorem stackAdd_spec {s : St} {pre : List ObjId} (h : Inv s pre) (x : ObjId) :
    ∃ r, stackAdd s x pre.length = .ok r ∧ r.dist = reported pre x ∧
      r.last = (if x ∈ pre.tail then (lastPos pre x : Int) else -1) ∧ Inv r.st (pre ++ [x]) := by
  by_cases ht : x ∈ pre.tail
  · obtain ⟨hx, h0⟩ := mem_tail_iff.1 ht
    have htb : s.tbl x = lastPos pre x := by rw [h.tbl, if_pos hx]
    have hmem : (lastPos pre x : Int) ∈ keysOf s.tree := (h.keys _).2 (Or.inr ⟨x, hx, rfl, by omega⟩)
    have hn : s.tree ≠ .nil := fun e => by rw [e] at hmem; simp [keysOf] at hmem
    obtain ⟨l, k, r, hsp, hg, hkeys, sl, sr, hlt, hgt⟩ := splay_spec (lastPos pre x : Int) h.good hn
    have hkk : k = (lastPos pre x : Int) := by
      rw [← hkeys, hsp, keysOf] at hmem
      rcases List.mem_append.1 hmem with h1 | h1
      · have := hlt _ h1; omega
      · rcases List.mem_cons.1 h1 with h1 | h1
        · exact h1.symm
        · have := hgt _ h1; omega
    have hval : nodeValue r = ((sinceLast x pre).dedup.length : Int) := by
      rw [nodeValue_eq sr, ← count_above h hx h0, ← hkeys, hsp, keysOf, List.countP_append, List.countP_cons]
      have h1 : (keysOf r).countP (fun j => decide ((lastPos pre x : Int) < j)) = (keysOf r).length :=
        List.countP_eq_length.2 (fun y hy => by simpa using hgt y hy)
      have h2 : (keysOf l).countP (fun j => decide ((lastPos pre x : Int) < j)) = 0 :=
        List.countP_eq_zero.2 (fun y hy => by have := hlt y hy; simp; omega)
      simp [h1, h2, hkk, size]
    obtain ⟨gd, kd⟩ := delete_spec (lastPos pre x : Int) hg
    obtain ⟨gi, ki, _⟩ := insert_spec (pre.length : Int) gd
    have hne : pre ≠ [] := fun e => by rw [e] at hx; simp at hx
    have hlen : 0 < pre.length := List.length_pos_of_ne_nil hne
    have hgp : s.tbl x ≠ 0 := by rw [htb]; exact h0
    refine ⟨⟨nodeValue r, (s.tbl x : Int), ⟨Splay.insert pre.length (Splay.delete (s.tbl x) (Splay.splay (s.tbl x) s.tree)), s.tbl.put x pre.length⟩⟩, ?_, ?_, ?_, ⟨?_, tbl_put h x, ?_⟩⟩
    · simp only [stackAdd, if_neg hgp, htb]
      rw [hsp]; simp only [rightOf, Res.bind_ok]; rw [if_neg h0]
    · rw [reported_eq ht]; exact hval
    · simp only [if_pos ht, htb]
    · simp only [htb]; exact gi
    · intro k'
      simp only [htb]
      rw [ki, kd, hkeys, h.keys]
      constructor
      · rintro (rfl | ⟨⟨rfl, _⟩ | ⟨y, hy, rfl, hy0⟩, hne'⟩)
        · exact Or.inr ⟨x, by simp, by rw [lastPos_self], by rw [lastPos_self]; omega⟩
        · exact Or.inl ⟨rfl, by simp⟩
        · have hyx : x ≠ y := fun e => hne' (by rw [e])
          exact Or.inr ⟨y, by simp [hy], by rw [lastPos_ne hyx], by rw [lastPos_ne hyx]; exact hy0⟩
      · rintro (⟨rfl, _⟩ | ⟨y, hy, rfl, hy0⟩)
        · exact Or.inr ⟨Or.inl ⟨rfl, hne⟩, by omega⟩
        · by_cases hyx : x = y
          · subst hyx; rw [lastPos_self]; exact Or.inl rfl
          · have hy' : y ∈ pre := by simpa [Ne.symm hyx] using hy
            rw [lastPos_ne hyx] at hy0 ⊢
            refine Or.inr ⟨Or.inr ⟨y, hy', rfl, hy0⟩, fun e => hyx ?_⟩
            exact (lastPos_inj hy' hx (by omega)).symm
  · have htb : s.tbl x = 0 := by
      rw [h.tbl]
      by_cases hx : x ∈ pre
      · rw [if_pos hx]
        by_contra h0
        exact ht (mem_tail_iff.2 ⟨hx, h0⟩)
      · rw [if_neg hx]
    obtain ⟨gi, ki, _⟩ := insert_spec (pre.length : Int) h.good
    refine ⟨⟨-1, -1, ⟨Splay.insert pre.length s.tree, s.tbl.put x pre.length⟩⟩, ?_, ?_, ?_, ⟨gi, tbl_put h x, ?_⟩⟩
    · simp only [stackAdd, if_pos htb]
    · simp [reported, ht]
    · simp [ht]
    · intro k'
      simp only
      rw [ki, h.keys]
      constructor
      · rintro (rfl | ⟨rfl, _⟩ | ⟨y, hy, rfl, hy0⟩)
        · cases hp : pre with
          | nil => exact Or.inl ⟨rfl, by simp⟩
          | cons a p => exact Or.inr ⟨x, by simp, by rw [lastPos_self], by rw [lastPos_self]; simp⟩
        · exact Or.inl ⟨rfl, by simp⟩
        · have hyx : x ≠ y := fun e => ht (mem_tail_iff.2 ⟨e ▸ hy, by rw [e]; omega⟩)
          exact Or.inr (Or.inr ⟨y, by simp [hy], by rw [lastPos_ne hyx], by rw [lastPos_ne hyx]; exact hy0⟩) |>.elim (fun h => Or.inl h) (fun h => h.elim (fun h => Or.inl h) Or.inr)
      · rintro (⟨rfl, _⟩ | ⟨y, hy, rfl, hy0⟩)
        · cases hp : pre with
          | nil => exact Or.inl rfl
          | cons a p => exact Or.inr (Or.inl ⟨rfl, by simp⟩)
        · by_cases hyx : x = y
          · subst hyx; rw [lastPos_self]; exact Or.inl rfl
          · have hy' : y ∈ pre := by simpa [Ne.symm hyx] using hy
            rw [lastPos_ne hyx] at hy0 ⊢
            exact Or.inr (Or.inr ⟨y, hy', rfl, hy0⟩)

/-! ## The loops -/

theorem reported_lt (pre : List ObjId) (x) : -1 ≤ reported pre x ∧ reported pre x ≤ pre.length := by
  by_cases h : x ∈ pre.tail
  · rw [reported_eq h]
    have h1 : (sinceLast x pre).dedup.length ≤ (sinceLast x pre).length := (List.dedup_sublist _).length_le
    have h2 := len_sinceLast (mem_tail_iff.1 h).1
    omega
  · simp [reported, h]

theorem i32_id {x : Int} (h1 : -1 ≤ x) (h2 : x < 2 ^ 31) : i32 x = x := by
  unfold i32
  rw [Int.emod_eq_of_lt (by omega) (by omega)]; omega

theorem stackLoop_spec : ∀ (tr : List ObjId) (s : St) (pre : List ObjId), Inv s pre → pre.length + tr.length ≤ 2 ^ 31 →
    stackLoop s pre.length tr = .ok (atEach reported pre tr)
  | [], s, pre, _, _ => rfl
  | x :: tr, s, pre, h, hl => by
    obtain ⟨r, hr, hd, _, hi⟩ := stackAdd_spec h x
    have hb := reported_lt pre x
    simp only [List.length_cons] at hl
    rw [stackLoop, hr]
    simp only [Res.bind_ok]
    rw [if_neg (by rw [hd]; omega)]
    have ih := stackLoop_spec tr r.st (pre ++ [x]) hi (by simp; omega)
    rw [List.length_append, List.length_singleton] at ih
    rw [ih, hd, i32_id hb.1 (by omega)]
    rfl

/-- what the future-distance array holds after the trace `pre` -/
def FutOk (arr : Nat → Int) (tr : List ObjId) : Prop :=
  (∀ pre x suf, tr = pre ++ x :: suf → x ∈ pre.tail → arr (lastPos pre x) = ((sinceLast x pre).dedup.length : Int)) ∧
  (∀ i, (∀ pre x suf, tr = pre ++ x :: suf → x ∈ pre.tail → lastPos pre x ≠ i) → arr i = -1)

theorem lastPos_tail_lt {tr : List ObjId} {pre x suf y} (h : tr = pre ++ x :: suf) (hx : x ∈ pre) (hy : y ∈ tr)
    (he : lastPos pre x = lastPos tr y) : False := by
  -- `x` occurs at `pre.length`, later than `lastPos pre x`
  subst h
  have h1 := at_lastPos hx
  have h2 := at_lastPos hy
  have hl := lastPos_lt hx
  rw [← he, List.getElem?_append_left hl, h1] at h2
  have hxy : x = y := by simpa using h2
  subst hxy
  have h3 : pre ++ x :: suf = (pre ++ [x]) ++ suf := by simp
  have key : ∀ (suf : List ObjId), pre.length ≤ lastPos ((pre ++ [x]) ++ suf) x := by
    intro suf
    induction suf using List.reverseRecOn with
    | nil => rw [List.append_nil, lastPos_self]; exact Nat.le_refl _
    | append_singleton suf z ih =>
      rw [← List.append_assoc]
      by_cases hz : z = x
      · subst hz; rw [lastPos_self]; simp
      · rw [lastPos_ne hz]; exact ih
  have := key suf
  rw [h3] at he
  omega

theorem split_concat {pre : List ObjId} {x : ObjId} {p y q} (h : pre ++ [x] = p ++ y :: q) :
    (q = [] ∧ p = pre ∧ y = x) ∨ ∃ q', q = q' ++ [x] ∧ pre = p ++ y :: q' := by
  rcases List.eq_nil_or_concat q with rfl | ⟨q', z, rfl⟩
  · left
    have := List.append_inj' h (by simp)
    refine ⟨rfl, this.1.symm, ?_⟩
    simpa using this.2.symm
  · right
    rw [List.concat_eq_append] at *
    have h2 : pre ++ [x] = (p ++ y :: q') ++ [z] := by rw [h]; simp
    have := List.append_inj' h2 (by simp)
    have hz : x = z := by simpa using this.2
    subst hz
    exact ⟨q', rfl, this.1⟩

theorem futureLoop_spec : ∀ (tr : List ObjId) (s : St) (pre : List ObjId) (arr : Nat → Int), Inv s pre → pre.length + tr.length ≤ 2 ^ 31 →
    FutOk arr pre → ∃ arr', futureLoop s pre.length arr tr = .ok arr' ∧ FutOk arr' (pre ++ tr)
  | [], s, pre, arr, _, _, hf => ⟨arr, rfl, by simpa using hf⟩
  | x :: tr, s, pre, arr, h, hl, hf => by
    obtain ⟨r, hr, hd, hlast, hi⟩ := stackAdd_spec h x
    have hb := reported_lt pre x
    simp only [List.length_cons] at hl
    rw [futureLoop, hr]
    simp only [Res.bind_ok]
    rw [if_neg (by rw [hd]; omega), hlast, hd, i32_id hb.1 (by omega)]
    have hfut : FutOk (if (if x ∈ pre.tail then (lastPos pre x : Int) else -1) ≠ -1 then
        fun i => if (i : Int) = (if x ∈ pre.tail then (lastPos pre x : Int) else -1) then reported pre x else arr i else arr) (pre ++ [x]) := by
      by_cases ht : x ∈ pre.tail
      · have hx := (mem_tail_iff.1 ht).1
        simp only [if_pos ht]
        rw [if_pos (by omega)]
        refine ⟨?_, ?_⟩
        · intro p y q he hy
          rcases split_concat he with ⟨rfl, rfl, rfl⟩ | ⟨q', rfl, he'⟩
          · simp only [if_true]; exact reported_eq ht
          · have hne : (lastPos p y : Int) ≠ (lastPos pre x : Int) := by
              intro e
              exact lastPos_tail_lt he' (mem_tail_iff.1 hy).1 hx (by omega)
            simp only [if_neg hne]
            exact hf.1 p y q' he' hy
        · intro i hi'
          have hne : (i : Int) ≠ (lastPos pre x : Int) := by
            intro e
            exact hi' pre x [] rfl ht (by omega)
          simp only [if_neg hne]
          refine hf.2 i (fun p y q he hy => hi' p y (q ++ [x]) (by rw [he]; simp) hy)
      · simp only [if_neg ht]
        rw [if_neg (by omega)]
        refine ⟨?_, ?_⟩
        · intro p y q he hy
          rcases split_concat he with ⟨rfl, rfl, rfl⟩ | ⟨q', rfl, he'⟩
          · exact absurd hy ht
          · exact hf.1 p y q' he' hy
        · intro i hi'
          exact hf.2 i (fun p y q he hy => hi' p y (q ++ [x]) (by rw [he]; simp) hy)
    obtain ⟨arr', ha, hok⟩ := futureLoop_spec tr r.st (pre ++ [x]) _ hi (by simp; omega) hfut
    rw [List.length_append, List.length_singleton] at ha
    exact ⟨arr', ha, by rw [List.append_assoc] at hok; exact hok⟩

/-- how many requests of `tr` (after `pre`) have reported distance `i - 1` -/
def cntAt (pre tr : List ObjId) (i : Nat) : Nat := (atEach reported pre tr).countP (fun d => decide (d ≠ -1 ∧ d + 1 = (i : Int)))

theorem hitLoop_spec (size : Nat) : ∀ (tr : List ObjId) (s : St) (pre : List ObjId) (arr : Nat → Nat), Inv s pre →
    ∃ arr', hitLoop size s pre.length arr tr = .ok arr' ∧ ∀ i ≤ size, arr' i = arr i + cntAt pre tr i
  | [], s, pre, arr, _ => ⟨arr, rfl, fun i _ => by simp [cntAt, atEach]⟩
  | x :: tr, s, pre, arr, h => by
    obtain ⟨r, hr, hd, _, hi⟩ := stackAdd_spec h x
    obtain ⟨arr', ha, hc⟩ := hitLoop_spec size tr r.st (pre ++ [x])
      (if r.dist = -1 then arr else if r.dist + 1 ≤ size then fun i => if (i : Int) = r.dist + 1 then arr i + 1 else arr i else arr) hi
    rw [List.length_append, List.length_singleton] at ha
    refine ⟨arr', by rw [hitLoop, hr]; simpa using ha, ?_⟩
    intro i his
    rw [hc i his, hd]
    simp only [cntAt, atEach, List.countP_cons]
    by_cases h1 : reported pre x = -1
    · simp [h1]
    · rw [if_neg h1]
      by_cases h2 : reported pre x + 1 ≤ size
      · rw [if_pos h2]
        by_cases h3 : (i : Int) = reported pre x + 1
        · simp [h1, h3]; omega
        · have h4 : ¬ reported pre x + 1 = (i : Int) := fun e => h3 e.symm
          simp [h3, h4]
      · rw [if_neg h2]
        have h4 : ¬ reported pre x + 1 = (i : Int) := by omega
        simp [h4]

theorem accumulate_spec : ∀ (n a : Nat) (arr : Nat → Nat), 1 ≤ a →
    (∀ i, i < a → accumulate (List.range' a n) arr i = arr i) ∧
    (∀ i, a ≤ i → i < a + n → accumulate (List.range' a n) arr i = arr (a - 1) + ((List.range' a (i + 1 - a)).map arr).sum)
  | 0, a, arr, _ => ⟨fun i _ => rfl, fun i h1 h2 => by omega⟩
  | n + 1, a, arr, ha => by
    rw [List.range'_succ, accumulate]
    obtain ⟨e1, e2⟩ := accumulate_spec n (a + 1) (fun j => if j = a then arr a + arr (a - 1) else arr j) (by omega)
    refine ⟨fun i hi => ?_, fun i h1 h2 => ?_⟩
    · rw [e1 i (by omega)]; simp; omega
    · by_cases hia : i = a
      · subst hia
        rw [e1 i (by omega)]
        simp [List.range'_succ]; omega
      · rw [e2 i (by omega) (by omega)]
        have e3 : i + 1 - a = (i + 1 - (a + 1)) + 1 := by omega
        rw [e3, List.range'_succ, List.map_cons, List.sum_cons]
        have e4 : (List.range' (a + 1) (i + 1 - (a + 1))).map (fun j => if j = a then arr a + arr (a - 1) else arr j) =
            (List.range' (a + 1) (i + 1 - (a + 1))).map arr := by
          apply List.map_congr_left
          intro j hj
          rw [List.mem_range'_1] at hj
          simp; omega
        rw [e4]; simp; omega

theorem sum_cnt (l : List Int) (hl : ∀ d ∈ l, -1 ≤ d) (i : Nat) :
    (l.countP (fun d => decide (d ≠ -1 ∧ d + 1 = ((0 : Nat) : Int)))) +
    ((List.range' 1 i).map (fun (j : Nat) => l.countP (fun d => decide (d ≠ -1 ∧ d + 1 = (j : Int))))).sum =
      l.countP (fun d => decide (0 ≤ d ∧ d < (i : Int))) := by
  induction i with
  | zero =>
    simp only [List.range'_zero, List.map_nil, List.sum_nil, Nat.add_zero]
    apply List.countP_congr
    intro d hd
    simp; omega
  | succ i ih =>
    rw [List.range'_1_concat, List.map_append, List.sum_append, ← Nat.add_assoc, ih]
    simp only [List.map_cons, List.map_nil, List.sum_cons, List.sum_nil, Nat.add_zero]
    clear ih
    induction l with
    | nil => simp
    | cons d l ih =>
      have := ih (fun d hd => hl d (by simp [hd]))
      have hd := hl d (by simp)
      simp only [List.countP_cons]
      generalize List.countP _ l = A at this ⊢
      generalize List.countP _ l = B at this ⊢
      generalize List.countP _ l = C at this ⊢
      simp only [decide_eq_true_eq]
      split <;> split <;> split <;> omega

theorem atEach_ge : ∀ (tr pre : List ObjId), ∀ d ∈ atEach reported pre tr, -1 ≤ d
  | [], pre, d, h => by simp [atEach] at h
  | x :: tr, pre, d, h => by
    rcases List.mem_cons.1 h with rfl | h
    · exact (reported_lt pre x).1
    · exact atEach_ge tr _ d h

theorem lruHitCnt_spec (size : Nat) (tr : List ObjId) :
    ∃ arr, lruHitCnt size tr = .ok arr ∧ ∀ i ≤ size, arr i = (atEach reported [] tr).countP (fun d => decide (0 ≤ d ∧ d < (i : Int))) := by
  obtain ⟨arr, ha, hc⟩ := hitLoop_spec size tr .init [] (fun _ => 0) inv_init
  simp only [List.length_nil, Nat.zero_add] at ha hc
  refine ⟨_, by rw [lruHitCnt, ha]; rfl, ?_⟩
  intro i his
  obtain ⟨e1, e2⟩ := accumulate_spec size 1 arr (by omega)
  rw [← sum_cnt _ (atEach_ge tr [])]
  cases i with
  | zero => rw [e1 0 (by omega), hc 0 (by omega)]; simp [cntAt]
  | succ i =>
    rw [e2 (i + 1) (by omega) (by omega), hc (1 - 1) (by omega)]
    congr 1
    rw [show i + 1 + 1 - 1 = i + 1 from rfl]
    congr 1
    apply List.map_congr_left
    intro j hj
    rw [List.mem_range'_1] at hj
    exact hc j (by omega)

/-! ## Distances and hits -/

theorem hits_same (k : Nat) : ∀ (tr : List ObjId) (a : ObjId) (p : List ObjId), a ∈ p →
    (atEach reported (a :: p) tr).countP (fun d => decide (0 ≤ d ∧ d < (k : Int))) = (hitsByDistance k (a :: p) tr).count true
  | [], a, p, _ => rfl
  | x :: tr, a, p, h => by
    have ih := hits_same k tr a (p ++ [x]) (by simp [h])
    simp only [atEach, hitsByDistance, List.countP_cons, List.count_cons, List.cons_append] at *
    rw [ih]
    congr 1
    by_cases hx : x ∈ p
    · have hx' : x ∈ a :: p := by simp [hx]
      rw [reported_eq (by simpa using hx)]
      simp [stackDistance, hx', within]
    · have hx' : x ∉ a :: p := by simp only [List.mem_cons, not_or]; exact ⟨fun e => hx (e ▸ h), hx⟩
      simp [reported, hx, stackDistance, hx', within]

theorem sinceLast_head {a : ObjId} {p : List ObjId} (h : a ∉ p) : sinceLast a (a :: p) = p := by
  induction p using List.reverseRecOn with
  | nil => simp [sinceLast]
  | append_singleton p z ih =>
    have hz : z ≠ a := by rintro rfl; simp at h
    rw [← List.cons_append, sinceLast_concat_ne hz, ih (by intro e; exact h (by simp [e]))]

theorem hits_first (k : Nat) : ∀ (tr : List ObjId) (a : ObjId) (p : List ObjId), a ∉ p →
    (atEach reported (a :: p) tr).countP (fun d => decide (0 ≤ d ∧ d < (k : Int))) +
      (if a ∈ tr ∧ (p ++ tr.takeWhile (· ≠ a)).dedup.length < k then 1 else 0) = (hitsByDistance k (a :: p) tr).count true
  | [], a, p, _ => by simp [atEach, hitsByDistance]
  | x :: tr, a, p, h => by
    by_cases hxa : x = a
    · subst hxa
      have := hits_same k tr x (p ++ [x]) (by simp)
      simp only [atEach, hitsByDistance, List.countP_cons, List.count_cons, List.cons_append] at *
      rw [this]
      simp [reported, h, stackDistance, within, sinceLast_head h]
    · have ih := hits_first k tr a (p ++ [x]) (by simp only [List.mem_append, List.mem_singleton, not_or]; exact ⟨h, Ne.symm hxa⟩)
      simp only [atEach, hitsByDistance, List.countP_cons, List.count_cons, List.cons_append] at *
      rw [← ih]
      have e1 : (x :: tr).takeWhile (fun y => decide (y ≠ a)) = x :: tr.takeWhile (fun y => decide (y ≠ a)) := by
        rw [List.takeWhile_cons]; simp [hxa]
      have e2 : a ∈ x :: tr ↔ a ∈ tr := by simp [Ne.symm hxa]
      rw [e1, List.append_assoc, List.singleton_append]
      simp only [e2]
      have e3 : (decide (0 ≤ reported (a :: p) x ∧ reported (a :: p) x < (k : Int))) = (within k (stackDistance (a :: p) x) == true) := by
        by_cases hx : x ∈ p
        · have hx' : x ∈ a :: p := by simp [hx]
          rw [reported_eq (by simpa using hx)]
          simp [stackDistance, hx', within]
        · have hx' : x ∉ a :: p := by simp [hx, hxa]
          simp [reported, hx, stackDistance, hx', within]
      rw [e3]; omega

theorem hits_all (k : Nat) (tr : List ObjId) :
    (atEach reported [] tr).countP (fun d => decide (0 ≤ d ∧ d < (k : Int))) + firstRepeatWithin k tr = (hitsByDistance k [] tr).count true := by
  cases tr with
  | nil => rfl
  | cons x tr =>
    have := hits_first k tr x [] (by simp)
    simp only [atEach, hitsByDistance, List.countP_cons, List.count_cons, List.nil_append, firstRepeatWithin] at *
    rw [← this]
    simp [reported, stackDistance, within]

/-! ## Access distances -/

def AInv (tbl : Table) (pre : List ObjId) : Prop := ∀ y, tbl y = if y ∈ pre then lastPos pre y else 0

theorem accessLoop_last : ∀ (tr : List ObjId) (tbl : Table) (pre : List ObjId), AInv tbl pre → pre.length + tr.length ≤ 2 ^ 31 →
    accessLoop .sinceLastAccess tbl pre.length tr =
      .ok (atEach (fun p x => if x ∈ p.tail then orMinus (accessAge p x) else -1) pre tr)
  | [], tbl, pre, _, _ => rfl
  | x :: tr, tbl, pre, h, hl => by
    simp only [List.length_cons] at hl
    have hret : (accessAdd .sinceLastAccess tbl x pre.length).1 = if x ∈ pre.tail then orMinus (accessAge pre x) else -1 := by
      simp only [accessAdd]
      rw [h x]
      by_cases ht : x ∈ pre.tail
      · obtain ⟨hx, h0⟩ := mem_tail_iff.1 ht
        rw [if_pos hx, if_neg h0, if_pos ht]
        have := len_sinceLast hx
        simp only [accessAge, if_pos hx, orMinus, lastPos]; omega
      · rw [if_neg ht]
        by_cases hx : x ∈ pre
        · have h0 : lastPos pre x = 0 := by
            by_contra h0; exact ht (mem_tail_iff.2 ⟨hx, h0⟩)
          rw [if_pos hx, if_pos h0]
        · rw [if_neg hx]; rfl
    have hb : -1 ≤ (accessAdd .sinceLastAccess tbl x pre.length).1 ∧ (accessAdd .sinceLastAccess tbl x pre.length).1 ≤ pre.length := by
      rw [hret]
      by_cases ht : x ∈ pre.tail
      · have hx := (mem_tail_iff.1 ht).1
        have := len_sinceLast hx
        rw [if_pos ht, accessAge, if_pos hx]; simp only [orMinus]; omega
      · rw [if_neg ht]; omega
    have hinv : AInv (accessAdd .sinceLastAccess tbl x pre.length).2 (pre ++ [x]) := by
      intro y
      simp only [accessAdd, Table.put]
      by_cases hy : y = x
      · subst hy; simp [lastPos_self]
      · rw [if_neg hy, h y, lastPos_ne (Ne.symm hy)]; simp [hy]
    rw [accessLoop]
    rw [if_neg (by omega)]
    have ih := accessLoop_last tr _ (pre ++ [x]) hinv (by simp; omega)
    rw [List.length_append, List.length_singleton] at ih
    rw [ih, i32_id hb.1 (by omega), hret]
    rfl

theorem accessLoop_first : ∀ (tr : List ObjId) (ts : Nat),
    accessLoop .sinceFirstAccess (fun _ => 0) ts tr = .ok (List.replicate tr.length (-1))
  | [], ts => rfl
  | x :: tr, ts => by
    rw [accessLoop]
    simp only [accessAdd, if_true]
    rw [if_neg (by omega), accessLoop_first tr (ts + 1)]
    rfl

end Verif.Dist
