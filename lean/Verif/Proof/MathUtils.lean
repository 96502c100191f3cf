import Mathlib.Algebra.Order.Field.Rat
import Mathlib.Tactic.FieldSimp
import Mathlib.Tactic.Linarith
import Mathlib.Tactic.Positivity
import Mathlib.Tactic.Ring
import Verif.Tools.MathUtils
import Verif.Spec.MathUtils
/-!
# Proofs about averages and medians
-/

namespace Verif.MathUtils
open Verif Verif.Spec.Averages

theorem part_inner {v l : List Rat} {i j : Nat} (h : Inner v i j l) : part v i j = l ∧ v.length - i - j = l.length ∧ v.length = i + l.length + j := by
  obtain ⟨p, s, rfl, rfl, rfl⟩ := h
  have hl : (p ++ l ++ s).length - p.length - s.length = l.length := by simp only [List.length_append]; omega
  refine ⟨?_, hl, by simp only [List.length_append]⟩
  unfold part
  rw [hl, List.append_assoc, List.drop_left, List.take_left]

theorem foldl_sq (m : Rat) : ∀ (l : List Rat) (s : Rat), l.foldl (fun sum x => sum + (x - m) * (x - m)) s = s + (l.map fun x => (x - m) * (x - m)).sum
  | [], s => by simp
  | x :: l, s => by
    rw [List.foldl_cons, foldl_sq m l, List.map_cons, List.sum_cons]
    ring

theorem foldl_add : ∀ (l : List Rat) (s : Rat), l.foldl (· + ·) s = s + l.sum
  | [], s => by simp
  | x :: l, s => by
    rw [List.foldl_cons, foldl_add l, List.sum_cons]
    ring

theorem mean_eq {v l : List Rat} {i j : Nat} (h : Inner v i j l) (hl : l ≠ []) : (l.length : Rat) * mean v i j = l.sum := by
  obtain ⟨h1, h2, h3⟩ := part_inner h
  have hpos : 0 < l.length := List.length_pos_of_ne_nil hl
  have hq : (l.length : Rat) ≠ 0 := by positivity
  unfold mean
  rw [if_neg (by omega), if_neg (by omega), h1, h2, foldl_add]
  field_simp
  ring

theorem variance_eq {v l : List Rat} {i j : Nat} (h : Inner v i j l) (hl : l ≠ []) :
    (l.length : Rat) * variance v i j = (l.map fun x => (x - mean v i j) * (x - mean v i j)).sum := by
  obtain ⟨h1, h2, h3⟩ := part_inner h
  have hpos : 0 < l.length := List.length_pos_of_ne_nil hl
  have hq : (l.length : Rat) ≠ 0 := by positivity
  have hm := mean_eq h hl
  unfold variance
  by_cases c : v.length ≤ 1
  · rw [if_pos c]
    obtain ⟨x, rfl⟩ : ∃ x, l = [x] := List.length_eq_one_iff.1 (by omega)
    simp at hm
    simp [hm]
  · rw [if_neg c, if_neg (by omega), h1, h2]
    show _ * ((l.foldl (fun sum x => sum + (x - mean v i j) * (x - mean v i j)) 0) / _) = _
    rw [foldl_sq]
    field_simp
    ring

theorem sum_sq (m : Rat) : ∀ l : List Rat, (l.map fun x => (x - m) * (x - m)).sum = (l.map fun x => x * x).sum - 2 * m * l.sum + (l.length : Rat) * (m * m)
  | [] => by simp
  | x :: l => by
    rw [List.map_cons, List.map_cons, List.sum_cons, List.sum_cons, List.sum_cons, sum_sq m l, List.length_cons]
    push_cast
    ring

theorem sum_sq_nonneg (m : Rat) : ∀ l : List Rat, 0 ≤ (l.map fun x => (x - m) * (x - m)).sum
  | [] => by simp
  | x :: l => by
    rw [List.map_cons, List.sum_cons]
    have := sum_sq_nonneg m l
    have := mul_self_nonneg (x - m)
    linarith

theorem sum_sq_zero (m : Rat) : ∀ l : List Rat, (l.map fun x => (x - m) * (x - m)).sum = 0 → ∀ x ∈ l, x = m
  | [], _ => by simp
  | x :: l, h => by
    rw [List.map_cons, List.sum_cons] at h
    have h1 := sum_sq_nonneg m l
    have h2 := mul_self_nonneg (x - m)
    have h3 : (x - m) * (x - m) = 0 := by linarith
    have h4 := sum_sq_zero m l (by linarith)
    intro y hy
    rcases List.mem_cons.1 hy with rfl | hy
    · have := mul_self_eq_zero.1 h3
      linarith
    · exact h4 y hy

theorem sum_bounds {lo hi : Rat} : ∀ l : List Rat, (∀ x ∈ l, lo ≤ x ∧ x ≤ hi) → (l.length : Rat) * lo ≤ l.sum ∧ l.sum ≤ (l.length : Rat) * hi
  | [], _ => by simp
  | x :: l, h => by
    have h1 := sum_bounds l fun y hy => h y (List.mem_cons_of_mem _ hy)
    have h2 := h x List.mem_cons_self
    rw [List.sum_cons, List.length_cons]
    push_cast
    constructor <;> linarith [h1.1, h1.2, h2.1, h2.2]

theorem count_low {s : List Rat} (hs : s.Pairwise (· ≤ ·)) {i : Nat} (hi : i < s.length) {y : Rat} (h : s[i] ≤ y) :
    i + 1 ≤ s.countP (fun x => decide (x ≤ y)) := by
  have hall : (s.take (i + 1)).countP (fun x => decide (x ≤ y)) = (s.take (i + 1)).length := by
    rw [List.countP_eq_length]
    intro x hx
    obtain ⟨k, hk, rfl⟩ := List.getElem_of_mem hx
    rw [List.length_take] at hk
    rw [List.getElem_take]
    have : s[k] ≤ s[i] := by
      rcases Nat.lt_or_ge k i with c | c
      · exact List.pairwise_iff_getElem.1 hs k i _ _ c
      · have : k = i := by omega
        subst this
        exact le_refl _
    exact decide_eq_true (le_trans this h)
  have := List.Sublist.countP_le (p := fun x => decide (x ≤ y)) (List.take_sublist (i + 1) s)
  rw [hall, List.length_take] at this
  omega

theorem count_high {s : List Rat} (hs : s.Pairwise (· ≤ ·)) {i : Nat} (hi : i < s.length) {y : Rat} (h : y ≤ s[i]) :
    s.length - i ≤ s.countP (fun x => decide (y ≤ x)) := by
  have hall : (s.drop i).countP (fun x => decide (y ≤ x)) = (s.drop i).length := by
    rw [List.countP_eq_length]
    intro x hx
    obtain ⟨k, hk, rfl⟩ := List.getElem_of_mem hx
    rw [List.length_drop] at hk
    rw [List.getElem_drop]
    have : s[i] ≤ s[i + k] := by
      rcases Nat.eq_zero_or_pos k with c | c
      · subst c
        exact le_refl _
      · exact List.pairwise_iff_getElem.1 hs i (i + k) _ _ (by omega)
    exact decide_eq_true (le_trans h this)
  have := List.Sublist.countP_le (p := fun x => decide (y ≤ x)) (List.drop_sublist i s)
  rw [hall, List.length_drop] at this
  omega

theorem sort_pairwise (v : List Rat) : (v.mergeSort fun a b => decide (a ≤ b)).Pairwise (· ≤ ·) := by
  have := List.pairwise_mergeSort (le := fun a b : Rat => decide (a ≤ b))
    (fun a b c h1 h2 => decide_eq_true (le_trans (of_decide_eq_true h1) (of_decide_eq_true h2)))
    (fun a b => by rcases le_total a b with h | h <;> simp [h]) v
  exact this.imp fun h => of_decide_eq_true h

theorem median_ok (v : List Rat) (hv : v ≠ []) : ∃ m, median v = .ok m ∧ Median v m ∧ (v.length % 2 = 1 → m ∈ v) := by
  have hpos : 0 < v.length := List.length_pos_of_ne_nil hv
  have hp := List.mergeSort_perm v fun a b => decide (a ≤ b)
  have hs := sort_pairwise v
  unfold median
  rw [if_neg (by omega)]
  generalize (v.mergeSort fun a b => decide (a ≤ b)) = c at hp hs
  have hl := hp.length_eq
  unfold Median
  rw [← hl]
  simp only [← hp.countP_eq]
  by_cases e : c.length % 2 = 0
  · have h1 : c.length / 2 - 1 < c.length := by omega
    have h2 : c.length / 2 < c.length := by omega
    have hle : c[c.length / 2 - 1] ≤ c[c.length / 2] := List.pairwise_iff_getElem.1 hs _ _ _ _ (by omega)
    simp only [if_pos e, List.getElem?_eq_getElem h1, List.getElem?_eq_getElem h2]
    refine ⟨_, rfl, ⟨?_, ?_⟩, by omega⟩
    · have := count_low hs h1 (y := (c[c.length / 2 - 1] + c[c.length / 2]) / 2) (by linarith)
      omega
    · have := count_high hs h2 (y := (c[c.length / 2 - 1] + c[c.length / 2]) / 2) (by linarith)
      omega
  · have h2 : c.length / 2 < c.length := by omega
    simp only [if_neg e, List.getElem?_eq_getElem h2]
    refine ⟨_, rfl, ⟨?_, ?_⟩, fun _ => hp.mem_iff.1 (List.getElem_mem h2)⟩
    · have := count_low hs h2 (le_refl _)
      omega
    · have := count_high hs h2 (le_refl _)
      omega

theorem median_perm {v w : List Rat} (h : v.Perm w) : median v = median w := by
  have hs : (v.mergeSort fun a b => decide (a ≤ b)) = w.mergeSort fun a b => decide (a ≤ b) :=
    List.Perm.eq_of_pairwise (fun a b _ _ h1 h2 => le_antisymm h1 h2) (sort_pairwise v) (sort_pairwise w)
      (((List.mergeSort_perm v _).trans h).trans (List.mergeSort_perm w _).symm)
  unfold median
  rw [hs, h.length_eq]

theorem value_after (s : Nat) : ∀ n, value (after s n) = MyMath.seedAfter (s % 2 ^ 64) n
  | 0 => rfl
  | n + 1 => by
    have ih := value_after s n
    unfold value at ih ⊢
    rw [after, MyMath.seedAfter, ← ih]
    unfold step MyMath.nextRand MyMath.w64
    omega

end Verif.MathUtils
