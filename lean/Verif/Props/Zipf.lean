import Verif.Proof.Zipf
import Verif.Proof.AnalyzerStats
import Mathlib.Analysis.SpecialFunctions.Log.Basic
/-!
# C97: the Zipf fit of the trace analyzer

Exact arithmetic: the theorems hold in every ordered field, with any function for the logarithm that is strictly increasing on the positive
numbers.
-/

namespace Verif.Props
open Verif Verif.Analyzer Verif.LeastSquares

/-- strictly increasing from 1 on, as the logarithm is -/
def LogLike {F : Type} [LT F] (lg : Nat → F) : Prop := ∀ i j, 0 < i → i < j → lg i < lg j

/-- the real logarithm -/
theorem Zipf_log : LogLike (fun n : Nat => Real.log n) := by
  intro i j hi hij
  exact Real.log_lt_log (by exact_mod_cast hi) (by exact_mod_cast hij)

section
variable {F : Type} [Field F] [LinearOrder F] [IsStrictOrderedRing F] (lg : Nat → F) (hlg : LogLike lg)
include hlg

theorem Zipf_le {i j : Nat} (hi : 0 < i) (h : i ≤ j) : lg i ≤ lg j := by
  rcases Nat.lt_or_eq_of_le h with h | h
  · exact le_of_lt (hlg i j hi h)
  · rw [h]

/-- C97: with 200 objects or more, the slope is that of the line that fits the points (log rank, log frequency) best, with the sign changed. -/
theorem C97_leastSquares_Zipf (freq : List Nat) (h : 200 ≤ freq.length) : ∃ b, IsBest (zipfPoints lg freq) (-(fit lg freq).slope) b := by
  have hmem : ∀ k (hk : k < freq.length), (lg (k + 1), lg freq[k]) ∈ zipfPoints lg freq := by
    intro k hk
    unfold zipfPoints
    refine List.mem_map.2 ⟨(freq[k], k + 1), ?_, rfl⟩
    rw [List.mem_zipIdx_iff_le_and_getElem?_sub]
    exact ⟨by omega, by simp [hk]⟩
  rw [fit_slope h, neg_neg]
  exact ⟨_, best_line (hmem 0 (by omega)) (hmem 1 (by omega)) (ne_of_lt (hlg 1 2 (by omega) (by omega)))⟩

/-- the points in rank order, if the frequencies are sorted and positive -/
theorem Zipf_points_sorted : ∀ (freq : List Nat) (k : Nat), (∀ x ∈ freq, 0 < x) → freq.Pairwise (fun a b => b ≤ a) →
    (((freq.zipIdx (k + 1)).map (fun p => (lg p.2, lg p.1))).Pairwise (fun p q : F × F => p.1 < q.1 ∧ q.2 ≤ p.2)) := by
  intro freq
  induction freq with
  | nil => intro k _ _; simp
  | cons x freq ih =>
    intro k hpos hs
    rw [List.pairwise_cons] at hs
    rw [List.zipIdx_cons, List.map_cons, List.pairwise_cons]
    refine ⟨?_, ih (k + 1) (fun y hy => hpos y (by simp [hy])) hs.2⟩
    intro q hq
    obtain ⟨⟨f, i⟩, hm, rfl⟩ := List.mem_map.1 hq
    rw [List.mem_zipIdx_iff_le_and_getElem?_sub] at hm
    have hf : f ∈ freq := List.mem_of_getElem? hm.2
    exact ⟨hlg _ _ (by omega) (by have := hm.1; simp only at this; omega), Zipf_le lg hlg (hpos f (by simp [hf])) (hs.1 f hf)⟩

/-- C97: the slope is never negative. -/
theorem C97_nonneg_Zipf (freq : List Nat) (h : 200 ≤ freq.length) (hpos : ∀ x ∈ freq, 0 < x) (hs : freq.Pairwise (fun a b => b ≤ a)) : 0 ≤ (fit lg freq).slope := by
  rw [fit_slope h]
  have hp := Zipf_points_sorted lg hlg freq 0 hpos hs
  have h1 := covar_nonpos (hp.imp (fun ⟨a, b⟩ => ⟨le_of_lt a, b⟩))
  have h2 := var_nonneg (zipfPoints lg freq)
  have := div_nonpos_of_nonpos_of_nonneg h1 h2
  exact neg_nonneg.2 this

/-- C97: it is positive if and only if not all objects are requested equally often. -/
theorem C97_positive_Zipf (freq : List Nat) (h : 200 ≤ freq.length) (hpos : ∀ x ∈ freq, 0 < x) (hs : freq.Pairwise (fun a b => b ≤ a)) :
    0 < (fit lg freq).slope ↔ ∃ x ∈ freq, ∃ y ∈ freq, x ≠ y := by
  have hmem : ∀ k (hk : k < freq.length), (lg (k + 1), lg freq[k]) ∈ zipfPoints lg freq := by
    intro k hk
    unfold zipfPoints
    refine List.mem_map.2 ⟨(freq[k], k + 1), ?_, rfl⟩
    rw [List.mem_zipIdx_iff_le_and_getElem?_sub]
    exact ⟨by omega, by simp [hk]⟩
  have hv := var_pos (hmem 0 (by omega)) (hmem 1 (by omega)) (ne_of_lt (hlg 1 2 (by omega) (by omega)))
  rw [fit_slope h]
  constructor
  · intro h1
    by_contra hno
    push Not at hno
    obtain ⟨c, hc⟩ : ∃ c, ∀ x ∈ freq, x = c := ⟨freq[0], fun x hx => hno x hx _ (List.getElem_mem _)⟩
    have hy : ∀ p ∈ zipfPoints lg freq, p.2 = lg c := by
      intro p hp
      obtain ⟨⟨f, i⟩, hm, rfl⟩ := List.mem_map.1 hp
      rw [List.mem_zipIdx_iff_le_and_getElem?_sub] at hm
      show lg f = lg c
      rw [hc f (List.mem_of_getElem? hm.2)]
    have hz : ∀ l : List (F × F), (∀ p ∈ l, p.2 = lg c) → covar l = 0 := by
      intro l hl
      induction l with
      | nil => simp [covar, sXY, sX, sY]
      | cons a l ih =>
        rw [covar_cons, ih (fun p hp => hl p (by simp [hp])), zero_add]
        apply List.sum_eq_zero
        intro x hx
        obtain ⟨p, hp, rfl⟩ := List.mem_map.1 hx
        rw [hl p (by simp [hp]), hl a (by simp)]
        simp
    rw [hz _ hy] at h1
    simp at h1
  · rintro ⟨x, hx, y, hy, hne⟩
    obtain ⟨i, hi, rfl⟩ := List.getElem_of_mem hx
    obtain ⟨j, hj, rfl⟩ := List.getElem_of_mem hy
    have hl : lg freq[i] ≠ lg freq[j] := by
      rcases Nat.lt_or_gt_of_ne hne with h1 | h1
      · exact ne_of_lt (hlg _ _ (hpos _ hx) h1)
      · exact ne_of_gt (hlg _ _ (hpos _ hy) h1)
    have hn := covar_neg (Zipf_points_sorted lg hlg freq 0 hpos hs) (hmem i hi) (hmem j hj) hl
    exact neg_pos.2 (div_neg_of_neg_of_pos hn hv)

/-- C97: if the logarithms of the frequencies are exactly `c − a · log rank`, the slope is `a`. -/
theorem C97_exact_Zipf (freq : List Nat) (h : 200 ≤ freq.length) (a c : F) (hz : ∀ k (hk : k < freq.length), lg freq[k] = c - a * lg (k + 1)) : (fit lg freq).slope = a := by
  obtain ⟨b, hb⟩ := C97_leastSquares_Zipf lg hlg freq h
  by_contra hne
  have h1 := hb (-a) c (fun e => hne (by have := congrArg Prod.fst e; simp only at this; linear_combination this))
  have h0 : error (zipfPoints lg freq) (-a) c = 0 := by
    unfold error
    apply List.sum_eq_zero
    intro x hx
    obtain ⟨p, hp, rfl⟩ := List.mem_map.1 hx
    obtain ⟨⟨f, i⟩, hm, rfl⟩ := List.mem_map.1 hp
    rw [List.mem_zipIdx_iff_le_and_getElem?_sub] at hm
    obtain ⟨h2, h3⟩ := hm
    simp only at h2 h3
    obtain ⟨hk, rfl⟩ := List.getElem?_eq_some_iff.1 h3
    have := hz (i - 1) hk
    rw [show i - 1 + 1 = i by omega] at this
    simp only
    rw [this]
    ring
  rw [h0] at h1
  have h4 : 0 ≤ error (zipfPoints lg freq) (-(fit lg freq).slope) b := sum_nonneg_of _ _ (fun p _ => sq_nonneg _)
  exact absurd h1 (not_lt.2 h4)

end

/-- C97: what is printed is a slope only if there are at least 200 objects and the most popular one has at least 200 requests. -/
theorem C97_printed_Zipf {F : Type} [Field F] (lg : Nat → F) (freq : List Nat) :
    (fit lg freq).printed.isSome ↔ 200 ≤ freq.length ∧ 200 ≤ freq.headD 0 := by
  unfold fit
  by_cases h : freq.length < 200
  · rw [if_pos h]; simp [Fit.printed]; omega
  · rw [if_neg h]
    simp only [Fit.printed, Option.isSome_none, Bool.false_or]
    by_cases h2 : freq.headD 0 < 200
    · rw [if_pos h2]; simp only [Option.isSome_some, if_true, Option.isSome_none, Bool.false_eq_true, false_iff]; omega
    · rw [if_neg h2]; simp only [Option.isSome_none, Bool.false_eq_true, if_false, Option.isSome_some, true_iff]; omega

/-- C97 fails for the other two numbers of the line that is printed: intercept and R2 are -1, whatever the trace is. -/
theorem C97_intercept_fails_Zipf {F : Type} [Field F] (lg : Nat → F) (freq : List Nat) (s b r : F) (h : (fit lg freq).printed = some (s, b, r)) : b = -1 ∧ r = -1 := by
  unfold fit at h
  by_cases h1 : freq.length < 200
  · rw [if_pos h1] at h; simp [Fit.printed] at h
  · rw [if_neg h1] at h
    simp only [Fit.printed, Option.isSome_none, Bool.false_or] at h
    by_cases h2 : (if freq.headD 0 < 200 then some (freq.headD 0) else none).isSome = true
    · rw [if_pos h2] at h; cases h
    · rw [if_neg h2] at h
      cases h
      exact ⟨rfl, rfl⟩

/-- 200 objects, the most popular one with 300 requests -/
def Zipf_demo : List Nat := 300 :: List.replicate 199 5

/-- the hypotheses of the theorems above, also with a stand-in for the logarithm in the rationals -/
example : LogLike (fun n : Nat => (n : ℚ)) ∧ 200 ≤ Zipf_demo.length ∧ (∀ x ∈ Zipf_demo, 0 < x) ∧ Zipf_demo.Pairwise (fun a b => b ≤ a) ∧ (∃ x ∈ Zipf_demo, ∃ y ∈ Zipf_demo, x ≠ y) ∧
    (fit (fun n : Nat => Real.log n) Zipf_demo).printed.isSome = true := by
  have hlen : Zipf_demo.length = 200 := by decide +kernel
  refine ⟨fun i j _ h => Nat.cast_lt.2 h, by omega, by decide +kernel, by decide +kernel, ⟨300, by decide +kernel, 5, by decide +kernel, by decide⟩, ?_⟩
  rw [C97_printed_Zipf, hlen]
  exact ⟨by omega, by decide⟩

/-- an exact power law: if all objects are requested equally often the slope is 0 -/
example : (fit (fun n : Nat => Real.log n) (List.replicate 250 7)).slope = 0 := by
  refine C97_exact_Zipf _ Zipf_log _ (by rw [List.length_replicate]; omega) 0 (Real.log (7 : Nat)) ?_
  intro k hk
  rw [List.getElem_replicate, zero_mul, sub_zero]

end Verif.Props
