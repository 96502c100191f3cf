import Verif.Analyzer.Zipf
import Verif.Spec.LeastSquares
import Mathlib.Algebra.Order.Field.Basic
import Mathlib.Tactic.Ring
import Mathlib.Tactic.Linarith
import Mathlib.Tactic.FieldSimp
import Mathlib.Tactic.LinearCombination
import Mathlib.Tactic.Positivity

namespace Verif.Analyzer
open LeastSquares
set_option linter.unusedSectionVars false

variable {F : Type} [Field F]

theorem foldl_add (l : List F) : ∀ a : F, l.foldl (· + ·) a = a + l.sum := by
  induction l with
  | nil => intro a; simp
  | cons x l ih => intro a; rw [List.foldl_cons, ih, List.sum_cons]; ring

theorem total_eq (l : List F) : total l = l.sum := by unfold total; rw [foldl_add]; ring

/-- the sums of the fit over a list of points -/
def sX (l : List (F × F)) : F := (l.map (·.1)).sum
def sY (l : List (F × F)) : F := (l.map (·.2)).sum
def sXX (l : List (F × F)) : F := (l.map (fun p => p.1 * p.1)).sum
def sXY (l : List (F × F)) : F := (l.map (fun p => p.1 * p.2)).sum

def covar (l : List (F × F)) : F := (l.length : F) * sXY l - sX l * sY l
def var (l : List (F × F)) : F := (l.length : F) * sXX l - sX l * sX l

theorem inner_xy (l : List (F × F)) : inner (l.map (·.1)) (l.map (·.2)) = sXY l := by
  unfold inner sXY
  rw [foldl_add, zero_add]
  congr 1
  induction l with
  | nil => rfl
  | cons p l ih => simp only [List.map_cons, List.zipWith_cons_cons, ih]

theorem inner_xx (l : List (F × F)) : inner (l.map (·.1)) (l.map (·.1)) = sXX l := by
  unfold inner sXX
  rw [foldl_add, zero_add]
  congr 1
  induction l with
  | nil => rfl
  | cons p l ih => simp only [List.map_cons, List.zipWith_cons_cons, ih]

theorem slope_eq (l : List (F × F)) : slope (l.map (·.1)) (l.map (·.2)) = covar l / var l := by
  unfold slope
  simp only [total_eq, inner_xy, inner_xx, List.length_map]
  rfl

theorem sum_dev (a : F × F) (l : List (F × F)) : (l.map (fun p => (p.1 - a.1) * (p.2 - a.2))).sum =
    sXY l - a.1 * sY l - a.2 * sX l + (l.length : F) * (a.1 * a.2) := by
  unfold sXY sY sX
  induction l with
  | nil => simp
  | cons p l ih => simp only [List.map_cons, List.sum_cons, List.length_cons, ih]; push_cast; ring

theorem sum_devX (a : F × F) (l : List (F × F)) : (l.map (fun p => (p.1 - a.1) * (p.1 - a.1))).sum =
    sXX l - a.1 * sX l - a.1 * sX l + (l.length : F) * (a.1 * a.1) := by
  unfold sXX sX
  induction l with
  | nil => simp
  | cons p l ih => simp only [List.map_cons, List.sum_cons, List.length_cons, ih]; push_cast; ring

theorem covar_cons (a : F × F) (l : List (F × F)) : covar (a :: l) = covar l + (l.map (fun p => (p.1 - a.1) * (p.2 - a.2))).sum := by
  rw [sum_dev]
  unfold covar
  simp only [sXY, sX, sY, List.map_cons, List.sum_cons, List.length_cons]
  push_cast
  ring

theorem var_cons (a : F × F) (l : List (F × F)) : var (a :: l) = var l + (l.map (fun p => (p.1 - a.1) * (p.1 - a.1))).sum := by
  rw [sum_devX]
  unfold var
  simp only [sXX, sX, List.map_cons, List.sum_cons, List.length_cons]
  push_cast
  ring

section
variable [LinearOrder F] [IsStrictOrderedRing F]

theorem sum_nonneg_of {α : Type} (f : α → F) (l : List α) (h : ∀ p ∈ l, 0 ≤ f p) : 0 ≤ (l.map f).sum := by
  induction l with
  | nil => simp
  | cons p l ih =>
    rw [List.map_cons, List.sum_cons]
    exact add_nonneg (h p (by simp)) (ih (fun q hq => h q (by simp [hq])))

theorem sum_pos_of {α : Type} (f : α → F) (l : List α) (h : ∀ p ∈ l, 0 ≤ f p) (h' : ∃ p ∈ l, 0 < f p) : 0 < (l.map f).sum := by
  induction l with
  | nil => obtain ⟨p, hp, _⟩ := h'; simp at hp
  | cons q l ih =>
    rw [List.map_cons, List.sum_cons]
    obtain ⟨p, hp, hpos⟩ := h'
    have h1 := sum_nonneg_of f l (fun q hq => h q (by simp [hq]))
    have h2 := h q (by simp)
    rcases List.mem_cons.1 hp with rfl | hp
    · linarith
    · have := ih (fun q hq => h q (by simp [hq])) ⟨p, hp, hpos⟩
      linarith

theorem var_nonneg (l : List (F × F)) : 0 ≤ var l := by
  induction l with
  | nil => simp [var, sXX, sX]
  | cons a l ih => rw [var_cons]; exact add_nonneg ih (sum_nonneg_of _ l (fun p _ => mul_self_nonneg _))

/-- Two points on different verticals. -/
theorem var_pos {l : List (F × F)} {p q : F × F} (hp : p ∈ l) (hq : q ∈ l) (h : p.1 ≠ q.1) : 0 < var l := by
  induction l with
  | nil => simp at hp
  | cons a l ih =>
    rw [var_cons]
    have h1 := var_nonneg l
    have h2 := sum_nonneg_of (fun p : F × F => (p.1 - a.1) * (p.1 - a.1)) l (fun p _ => mul_self_nonneg _)
    have key : ∀ r ∈ l, r.1 ≠ a.1 → 0 < (l.map (fun p => (p.1 - a.1) * (p.1 - a.1))).sum := by
      intro r hr hne
      exact sum_pos_of _ l (fun p _ => mul_self_nonneg _) ⟨r, hr, mul_self_pos.2 (sub_ne_zero.2 hne)⟩
    rcases List.mem_cons.1 hp with rfl | hp
    · rcases List.mem_cons.1 hq with rfl | hq
      · exact absurd rfl h
      · have := key q hq (fun e => h e.symm); linarith
    · rcases List.mem_cons.1 hq with e | hq
      · have := key p hp (by rw [← e]; exact h); linarith
      · have := ih hp hq; linarith

theorem covar_nonpos {l : List (F × F)} (h : l.Pairwise (fun p q => p.1 ≤ q.1 ∧ q.2 ≤ p.2)) : covar l ≤ 0 := by
  induction l with
  | nil => simp [covar, sXY, sX, sY]
  | cons a l ih =>
    rw [List.pairwise_cons] at h
    rw [covar_cons]
    have h1 := ih h.2
    have h2 := sum_nonneg_of (fun p : F × F => (p.1 - a.1) * (a.2 - p.2)) l (fun p hp => mul_nonneg (sub_nonneg.2 (h.1 p hp).1) (sub_nonneg.2 (h.1 p hp).2))
    have h3 : (l.map (fun p => (p.1 - a.1) * (p.2 - a.2))).sum = - (l.map (fun p => (p.1 - a.1) * (a.2 - p.2))).sum := by
      clear ih h h1 h2
      induction l with
      | nil => simp
      | cons p l ih => simp only [List.map_cons, List.sum_cons, ih]; ring
    rw [h3]
    linarith

theorem covar_neg {l : List (F × F)} (h : l.Pairwise (fun p q => p.1 < q.1 ∧ q.2 ≤ p.2)) {p q : F × F} (hp : p ∈ l) (hq : q ∈ l) (hne : p.2 ≠ q.2) : covar l < 0 := by
  induction l with
  | nil => simp at hp
  | cons a l ih =>
    rw [List.pairwise_cons] at h
    rw [covar_cons]
    have h1 := covar_nonpos (h.2.imp (fun ⟨a, b⟩ => ⟨le_of_lt a, b⟩))
    have hnn : ∀ p ∈ l, 0 ≤ (p.1 - a.1) * (a.2 - p.2) := fun p hp => mul_nonneg (sub_nonneg.2 (le_of_lt (h.1 p hp).1)) (sub_nonneg.2 (h.1 p hp).2)
    have h2 := sum_nonneg_of (fun p : F × F => (p.1 - a.1) * (a.2 - p.2)) l hnn
    have h3 : (l.map (fun p => (p.1 - a.1) * (p.2 - a.2))).sum = - (l.map (fun p => (p.1 - a.1) * (a.2 - p.2))).sum := by
      clear ih h h1 h2 hp hq hnn
      induction l with
      | nil => simp
      | cons p l ih => simp only [List.map_cons, List.sum_cons, ih]; ring
    have key : ∀ r ∈ l, r.2 ≠ a.2 → 0 < (l.map (fun p => (p.1 - a.1) * (a.2 - p.2))).sum := by
      intro r hr hne
      exact sum_pos_of _ l hnn ⟨r, hr, mul_pos (sub_pos.2 (h.1 r hr).1) (sub_pos.2 (lt_of_le_of_ne (h.1 r hr).2 hne))⟩
    rw [h3]
    rcases List.mem_cons.1 hp with rfl | hp
    · rcases List.mem_cons.1 hq with rfl | hq
      · exact absurd rfl hne
      · have := key q hq (fun e => hne e.symm); linarith
    · rcases List.mem_cons.1 hq with e | hq
      · have := key p hp (by rw [← e]; exact hne); linarith
      · have := ih h.2 hp hq; linarith

/-- How the error changes with the line. -/
theorem error_shift (l : List (F × F)) (m b m' b' : F) :
    error l m' b' = error l m b + (l.map (fun p => ((m' - m) * p.1 + (b' - b)) ^ 2)).sum
      - 2 * (m' - m) * (sXY l - m * sXX l - b * sX l) - 2 * (b' - b) * (sY l - m * sX l - (l.length : F) * b) := by
  unfold error sXY sXX sX sY
  induction l with
  | nil => simp
  | cons p l ih => simp only [List.map_cons, List.sum_cons, List.length_cons, ih]; push_cast; ring

/-- The line of the fit is the best one. -/
theorem best_line {l : List (F × F)} {p q : F × F} (hp : p ∈ l) (hq : q ∈ l) (h : p.1 ≠ q.1) :
    IsBest l (covar l / var l) ((sY l - covar l / var l * sX l) / (l.length : F)) := by
  have hv := var_pos hp hq h
  have hn : (0 : F) < (l.length : F) := by
    have : 0 < l.length := List.length_pos_of_mem hp
    exact_mod_cast this
  generalize hm : covar l / var l = m
  generalize hb : (sY l - m * sX l) / (l.length : F) = b
  have e1 : sY l - m * sX l - (l.length : F) * b = 0 := by
    rw [← hb]; field_simp; ring
  have e2 : sXY l - m * sXX l - b * sX l = 0 := by
    have h1 : m * var l = covar l := by rw [← hm]; exact div_mul_cancel₀ _ (ne_of_gt hv)
    have h2 : (l.length : F) * (sXY l - m * sXX l - b * sX l) = 0 := by
      have h3 : (l.length : F) * b = sY l - m * sX l := by linear_combination -e1
      unfold var covar at h1
      calc (l.length : F) * (sXY l - m * sXX l - b * sX l) = (l.length : F) * sXY l - m * ((l.length : F) * sXX l) - ((l.length : F) * b) * sX l := by ring
        _ = 0 := by rw [h3]; linear_combination -h1
    rcases mul_eq_zero.1 h2 with h3 | h3
    · exact absurd h3 (ne_of_gt hn)
    · exact h3
  intro m' b' hne
  rw [error_shift l m b m' b', e1, e2]
  have hnn : ∀ r ∈ l, 0 ≤ ((m' - m) * r.1 + (b' - b)) ^ 2 := fun r _ => sq_nonneg _
  have : 0 < (l.map (fun p => ((m' - m) * p.1 + (b' - b)) ^ 2)).sum := by
    by_cases h1 : (m' - m) * p.1 + (b' - b) = 0
    · by_cases h2 : (m' - m) * q.1 + (b' - b) = 0
      · exfalso
        have h3 : (m' - m) * (p.1 - q.1) = 0 := by linear_combination h1 - h2
        rcases mul_eq_zero.1 h3 with h3 | h3
        · apply hne
          rw [h3] at h1
          have e3 : m' = m := sub_eq_zero.1 h3
          have e4 : b' = b := by linear_combination h1
          rw [e3, e4]
        · exact h (sub_eq_zero.1 h3)
      · exact sum_pos_of _ l hnn ⟨q, hq, by positivity⟩
    · exact sum_pos_of _ l hnn ⟨p, hp, by positivity⟩
  linarith

end

theorem zipfPoints_fst (lg : Nat → F) (freq : List Nat) : (zipfPoints lg freq).map (·.1) = (List.range freq.length).map (fun i => lg (i + 1)) := by
  unfold zipfPoints
  rw [List.map_map]
  have : ((fun p : F × F => p.1) ∘ fun p : Nat × Nat => (lg p.2, lg p.1)) = lg ∘ Prod.snd := rfl
  rw [this, ← List.map_map, List.zipIdx_map_snd, List.range'_eq_map_range, List.map_map]
  apply List.map_congr_left
  intro i _
  show lg (1 + i) = lg (i + 1)
  rw [Nat.add_comm]

theorem zipfPoints_snd (lg : Nat → F) (freq : List Nat) : (zipfPoints lg freq).map (·.2) = freq.map lg := by
  unfold zipfPoints
  rw [List.map_map]
  have : ((fun p : F × F => p.2) ∘ fun p : Nat × Nat => (lg p.2, lg p.1)) = lg ∘ Prod.fst := rfl
  rw [this, ← List.map_map, List.zipIdx_map_fst]

theorem fit_slope {lg : Nat → F} {freq : List Nat} (h : 200 ≤ freq.length) : (fit lg freq).slope = - (covar (zipfPoints lg freq) / var (zipfPoints lg freq)) := by
  unfold fit
  rw [if_neg (by omega)]
  show - slope ((List.range freq.length).map (fun i => lg (i + 1))) (freq.map lg) = _
  rw [← zipfPoints_fst, ← zipfPoints_snd, slope_eq]

end Verif.Analyzer
