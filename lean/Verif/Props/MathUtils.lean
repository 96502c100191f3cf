import Verif.Proof.MathUtils
/-!
# C118: means, medians, deviations and random numbers of the trace analyzer
-/

namespace Verif.Props
open Verif Verif.MathUtils Verif.Spec.Averages
set_option maxRecDepth 20000

/-- C118: the mean is the average of what is left after the first `i` and the last `j` elements are dropped, if anything is left, and lies between any bounds of these elements.
Missing: vectors of which nothing is left (`C118_nothingLeft_fails_MathUtils`). -/
theorem C118_mean_MathUtils_partial (v l : List Rat) (i j : Nat) (h : Inner v i j l) (hl : l ≠ []) :
    Average l (mean v i j) ∧ ∀ lo hi, (∀ x ∈ l, lo ≤ x ∧ x ≤ hi) → lo ≤ mean v i j ∧ mean v i j ≤ hi := by
  have e := mean_eq h hl
  have hq : (0 : Rat) < (l.length : Rat) := by
    have := List.length_pos_of_ne_nil hl
    positivity
  refine ⟨e, fun lo hi hb => ?_⟩
  have hs := sum_bounds l hb
  rw [← e] at hs
  exact ⟨le_of_mul_le_mul_left hs.1 hq, le_of_mul_le_mul_left hs.2 hq⟩

example : mean [100, 1, 2, 6, 0] 1 1 = 3 ∧ Inner [100, 1, 2, 6, 0] 1 1 [1, 2, 6] := ⟨by decide +kernel, [100], [0], rfl, rfl, rfl⟩

/-- C118 is false of vectors of which nothing is left: the mean of no numbers is reported as 0, below all the numbers there were. -/
theorem C118_nothingLeft_fails_MathUtils : mean [5, 6] 1 1 = 0 ∧ variance [5, 6] 1 1 = 0 ∧ median [] = .ok 0 := by decide +kernel

/-- C118: at least half of the numbers are at most the median and at least half are at least it; of an odd number of numbers it is one of them; their order does not matter. -/
theorem C118_median_MathUtils (v : List Rat) (hv : v ≠ []) :
    ∃ m, median v = .ok m ∧ Median v m ∧ (v.length % 2 = 1 → m ∈ v) ∧ ∀ w, v.Perm w → median w = .ok m := by
  obtain ⟨m, h1, h2, h3⟩ := median_ok v hv
  exact ⟨m, h1, h2, h3, fun w hw => by rw [← median_perm hw, h1]⟩

/-- C118: the median is the average of the two middle numbers of the sorted list, which are the same position if the number is odd. -/
theorem C118_middle_MathUtils (v s : List Rat) (hv : v ≠ []) (hp : s.Perm v) (hs : s.Pairwise (· ≤ ·)) :
    median v = .ok ((s.getD ((v.length - 1) / 2) 0 + s.getD (v.length / 2) 0) / 2) := by
  have hpos : 0 < v.length := List.length_pos_of_ne_nil hv
  have e : (v.mergeSort fun a b => decide (a ≤ b)) = s :=
    List.Perm.eq_of_pairwise (fun a b _ _ h1 h2 => le_antisymm h1 h2) (sort_pairwise v) hs ((List.mergeSort_perm v _).trans hp.symm)
  have hl := hp.length_eq
  unfold median
  rw [if_neg (by omega), e, ← hl]
  have h2 : s.length / 2 < s.length := by omega
  have h1 : (s.length - 1) / 2 < s.length := by omega
  have hg : ∀ i (hi : i < s.length), s.getD i 0 = s[i] := fun i hi => by simp [hi]
  rw [hg _ h1, hg _ h2]
  by_cases c : s.length % 2 = 0
  · have he : s.length / 2 - 1 = (s.length - 1) / 2 := by omega
    simp only [if_pos c, he, List.getElem?_eq_getElem h1, List.getElem?_eq_getElem h2]
  · have he : (s.length - 1) / 2 = s.length / 2 := by omega
    simp only [if_neg c, List.getElem?_eq_getElem h2, he]
    congr 1
    ring

example : median [7, 1, 3, 4] = .ok ((3 + 4) / 2) ∧ median [7, 1, 3] = .ok ((3 + 3) / 2) :=
  ⟨C118_middle_MathUtils [7, 1, 3, 4] [1, 3, 4, 7] (by simp) (by decide +kernel) (by decide +kernel), C118_middle_MathUtils [7, 1, 3] [1, 3, 7] (by simp) (by decide +kernel) (by decide +kernel)⟩

/-- C118: the square of the standard deviation of what is left is the average of the squares less the square of the average; it is never negative, and 0 just if all numbers are equal. -/
theorem C118_deviation_MathUtils (v l : List Rat) (i j : Nat) (h : Inner v i j l) (hl : l ≠ []) :
    (∀ m, Average l m → Average (l.map fun x => x * x) (variance v i j + m * m)) ∧ 0 ≤ variance v i j ∧ (variance v i j = 0 ↔ ∀ x ∈ l, ∀ y ∈ l, x = y) := by
  have e := mean_eq h hl
  have ev := variance_eq h hl
  have hq : (0 : Rat) < (l.length : Rat) := by
    have := List.length_pos_of_ne_nil hl
    positivity
  refine ⟨fun m hm => ?_, ?_, fun h0 => ?_, fun ha => ?_⟩
  · have hmm : m = mean v i j := mul_left_cancel₀ (ne_of_gt hq) (by rw [e]; exact hm)
    subst hmm
    rw [sum_sq] at ev
    unfold Average
    rw [List.length_map]
    have e2 := congrArg (fun t => 2 * mean v i j * t) e
    linarith
  · have := sum_sq_nonneg (mean v i j) l
    rw [← ev] at this
    exact nonneg_of_mul_nonneg_right this hq
  · rw [h0, mul_zero] at ev
    intro x hx y hy
    rw [sum_sq_zero _ l ev.symm x hx, sum_sq_zero _ l ev.symm y hy]
  · obtain ⟨x, hx⟩ := List.exists_mem_of_ne_nil l hl
    have hb := (C118_mean_MathUtils_partial v l i j h hl).2 x x fun y hy => by
      rw [ha y hy x hx]
      exact ⟨le_refl _, le_refl _⟩
    have hm : mean v i j = x := le_antisymm hb.2 hb.1
    have hz : (l.map fun x => (x - mean v i j) * (x - mean v i j)) = List.replicate l.length 0 := by
      rw [List.eq_replicate_iff]
      refine ⟨by simp, fun z hz => ?_⟩
      obtain ⟨y, hy, rfl⟩ := List.mem_map.1 hz
      rw [hm, ha y hy x hx]
      ring
    rw [hz, List.sum_replicate] at ev
    simp only [nsmul_zero] at ev
    exact (mul_eq_zero.1 ev).resolve_left (ne_of_gt hq)

example : variance [9, 1, 3] 1 0 = 1 ∧ Inner [9, 1, 3] 1 0 [1, 3] ∧ variance [2, 2, 2] 0 0 = 0 := ⟨by decide +kernel, ⟨[9], [], rfl, rfl, rfl⟩, by decide +kernel⟩

/-- C118: the random numbers of the analyzer, kept in 128 bits, are those of the library for the same 64-bit seed, also for a negative one. -/
theorem C118_random_MathUtils (seed : Int) (n : Nat) : value (after (setSeed seed) n) = MyMath.seedAfter (seed % (2 ^ 64 : Int)).toNat n := by
  rw [value_after]
  congr 1
  unfold setSeed
  omega

example : value (after (setSeed (-1)) 1) = MyMath.seedAfter (2 ^ 64 - 1) 1 ∧ value (after (setSeed 0) 1) = 1442695040888963407 := by decide +kernel

end Verif.Props
