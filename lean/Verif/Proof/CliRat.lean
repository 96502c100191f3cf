import Verif.Proof.CliArgs
import Mathlib.Algebra.Order.Field.Rat
import Mathlib.Tactic.Linarith
import Mathlib.Tactic.NormNum
import Mathlib.Tactic.Ring
import Mathlib.Tactic.FieldSimp
/-!
# Sizes given as fractions of the working set
-/

namespace Verif.Cli
open Verif Verif.CLib Verif.Spec.Csv Verif.Spec.Cli

theorem minNormal_pos : 0 < minNormal := by decide +kernel
theorem minNormal_tiny : 2 * minNormal ≤ 1 / 10 ^ 300 := by decide +kernel
theorem minNormal_thousandth : 2 * minNormal ≤ 1 / 1000 := by decide +kernel

theorem floor_toNat {v : Rat} (hv : 0 ≤ v) : ((v.floor.toNat : Nat) : Rat) ≤ v ∧ v < ((v.floor.toNat : Nat) : Rat) + 1 := by
  have h0 : 0 ≤ v.floor := Rat.le_floor_iff.2 (by simpa using hv)
  have e : ((v.floor.toNat : Nat) : Rat) = ((v.floor : Int) : Rat) := by
    have : ((v.floor.toNat : Nat) : Int) = v.floor := Int.toNat_of_nonneg h0
    exact_mod_cast congrArg (Int.cast : Int → Rat) this
  rw [e]
  refine ⟨Rat.floor_le v, ?_⟩
  have := Rat.lt_floor_add_one v
  rwa [Rat.intCast_add] at this

theorem floor_toNat_mono {v w : Rat} (h : v ≤ w) : v.floor.toNat ≤ w.floor.toNat := Int.toNat_le_toNat (Rat.floor_monotone h)

theorem floor_toNat_nat (n : Nat) : (n : Rat).floor.toNat = n := by
  have := Rat.floor_intCast (n : Int)
  have e : ((n : Int) : Rat) = (n : Rat) := by simp
  rw [e] at this
  rw [this]
  simp

variable {rd : Rat → Rat} (hr : Rounding rd)
include hr

theorem rd_zero : rd 0 = 0 := by
  have := hr.int 0 (by omega)
  simpa using this

theorem rd_one : rd 1 = 1 := by
  have := hr.int 1 (by omega)
  simpa using this

/-- the product of the working set and a fraction, as computed -/
theorem product {n : Nat} {x : Rat} (hn : n ≤ 2 ^ 50) (hx1 : x ≤ 1) (hx : x = 0 ∨ 2 * minNormal ≤ x) :
    let v := rd (rd (n : Rat) * rd x)
    0 ≤ v ∧ v ≤ n ∧ v < x * n + 1 ∧ x * n < v + 1 := by
  intro v
  have hm := minNormal_pos
  have hx0 : 0 ≤ x := by rcases hx with h | h <;> linarith
  have en : rd (n : Rat) = n := hr.int n (by omega)
  have hnR : (n : Rat) ≤ 2 ^ 50 := by exact_mod_cast hn
  have hn0 : (0 : Rat) ≤ n := by exact_mod_cast Nat.zero_le n
  obtain ⟨u1, u2⟩ := hr.near x (by rcases hx with h | h; exact .inl h; exact .inr (by linarith))
  have u3 : rd x ≤ 1 := by have := hr.mono x 1 hx1; rwa [rd_one hr] at this
  have u0 : 0 ≤ rd x := by have := hr.mono 0 x hx0; rwa [rd_zero hr] at this
  have pv : v = rd ((n : Rat) * rd x) := by show rd (rd (n : Rat) * rd x) = _; rw [en]
  generalize hp : (n : Rat) * rd x = p at pv
  have p0 : 0 ≤ p := by rw [← hp]; positivity
  have pn : p ≤ n := by rw [← hp]; nlinarith
  have hv0 : 0 ≤ v := by rw [pv]; have := hr.mono 0 p p0; rwa [rd_zero hr] at this
  have hvn : v ≤ n := by rw [pv]; have := hr.mono p n pn; rwa [en] at this
  have small : p = 0 ∨ minNormal ≤ p := by
    rcases hx with h | h
    · left
      rw [← hp, h, rd_zero hr]
      ring
    · by_cases h0 : n = 0
      · left
        rw [← hp, h0]
        simp
      · right
        have h1 : (1 : Rat) ≤ n := by exact_mod_cast Nat.one_le_iff_ne_zero.2 h0
        have : minNormal ≤ rd x := by linarith
        rw [← hp]
        nlinarith
  obtain ⟨w1, w2⟩ := hr.near p small
  have q1 : p ≤ n * x + n * x / 9007199254740992 := by rw [← hp]; nlinarith
  have q2 : n * x - n * x / 9007199254740992 ≤ p := by rw [← hp]; nlinarith
  have nx : (n : Rat) * x ≤ 2 ^ 50 := by nlinarith
  have nx0 : 0 ≤ (n : Rat) * x := by positivity
  have ex : x * n = n * x := by ring
  generalize (n : Rat) * x = y at *
  rw [ex]
  refine ⟨hv0, hvn, ?_, ?_⟩
  · rw [pv]
    norm_num at *
    linarith
  · rw [pv]
    norm_num at *
    linarith

theorem about_product {n : Nat} {x : Rat} (hn : n ≤ 2 ^ 50) (hx1 : x ≤ 1) (hx : x = 0 ∨ 2 * minNormal ≤ x) :
    AboutFraction x n (toLong (rd (rd (n : Rat) * rd x))) ∧ toLong (rd (rd (n : Rat) * rd x)) ≤ n := by
  obtain ⟨a, b, c, d⟩ := product hr hn hx1 hx
  generalize rd (rd (n : Rat) * rd x) = v at *
  obtain ⟨e, f⟩ := floor_toNat a
  refine ⟨⟨by unfold toLong; linarith, by unfold toLong; linarith⟩, ?_⟩
  have := floor_toNat_mono b
  rw [floor_toNat_nat] at this
  exact this

theorem toU64_product {n : Nat} {x : Rat} (hn : n ≤ 2 ^ 50) (hx1 : x ≤ 1) (hx : x = 0 ∨ 2 * minNormal ≤ x) :
    toU64 (rd (rd (n : Rat) * rd x)) = .ok (toLong (rd (rd (n : Rat) * rd x))) := by
  obtain ⟨a, b, c, d⟩ := product hr hn hx1 hx
  generalize rd (rd (n : Rat) * rd x) = v at *
  have hnR : (n : Rat) ≤ 2 ^ 50 := by exact_mod_cast hn
  unfold toU64
  have h50 : (2 : Rat) ^ 50 < 18446744073709551616 := by norm_num
  rw [if_pos ⟨by linarith, by linarith⟩]
  rfl

omit hr in
theorem atof_fraction {x : Rat} {s : Str} (h : FractionText x s) : atofRat s = x := by
  cases h with
  | @mk a b ha hb e =>
    have hdrop : (a ++ 46 :: b).dropWhile isSpace = a ++ 46 :: b := by
      cases a with
      | nil => rw [List.nil_append, List.dropWhile_cons_of_neg (by decide)]
      | cons c t => exact dropWhile_digits ha (by simp) _
    have hu : unsignedRat (a ++ 46 :: b) = x := by
      have h46 : ¬ digitVal 46 < 10 := by decide
      have hp : digitPrefix 10 (a ++ 46 :: b) = a := digitPrefix_all ha (by intro c hc; simp at hc; subst hc; exact h46)
      have hq : digitPrefix 10 b = b := digitPrefix_self hb
      have hab : ∀ c ∈ a ++ b, Digit c := fun c hc => by
        rcases List.mem_append.1 hc with h | h
        · exact ha c h
        · exact hb c h
      unfold unsignedRat
      simp only [hp, List.drop_left, hq, List.drop_length, digitsVal_eq hab, ite_self]
      rw [e]
      by_cases hb0 : b = []
      · subst hb0
        simp
      · have : ¬ ((0 : Int) - (b.length : Int) ≥ 0) := by
          have := List.length_pos_of_ne_nil hb0
          omega
        rw [if_neg this]
        have e2 : (-((0 : Int) - (b.length : Int))).toNat = b.length := by omega
        rw [e2]
    unfold atofRat
    rw [hdrop]
    split
    · rename_i heq
      cases a with
      | nil => simp at heq
      | cons c t =>
        have := (ha c (by simp)).1
        rw [List.cons_append, List.cons.injEq] at heq
        omega
    · rename_i heq
      cases a with
      | nil => simp at heq
      | cons c t =>
        have := (ha c (by simp)).1
        rw [List.cons_append, List.cons.injEq] at heq
        omega
    · exact hu

theorem tokenSize_fraction {w : Wss} {x : Rat} {s : Str} (h : FractionText x s) (hn : w.wss ≤ 2 ^ 50) (hx1 : x ≤ 1) (hx : x = 0 ∨ 1 / 10 ^ 300 ≤ x) :
    ∃ z, tokenSize rd w s = .ok z ∧ AboutFraction x w.wss z ∧ z ≤ w.wss := by
  have hx' : x = 0 ∨ 2 * minNormal ≤ x := by
    rcases hx with h | h
    · exact .inl h
    · exact .inr (le_trans minNormal_tiny h)
  have hdot : 46 ∈ s := by cases h; simp
  refine ⟨_, ?_, (about_product hr hn hx1 hx').1, (about_product hr hn hx1 hx').2⟩
  unfold tokenSize
  rw [if_pos hdot, atof_fraction h, toU64_product hr hn hx1 hx']

theorem tokenSize_one {w : Wss} {s : Str} (h : FractionText 1 s) (hn : w.wss ≤ 2 ^ 53) : tokenSize rd w s = .ok w.wss := by
  have hdot : 46 ∈ s := by cases h; simp
  have en : rd (w.wss : Rat) = w.wss := hr.int _ (by omega)
  unfold tokenSize
  rw [if_pos hdot, atof_fraction h, rd_one hr, en, mul_one, en]
  unfold toU64
  have h1 : (-1 : Rat) < (w.wss : Rat) := by
    have : (0 : Rat) ≤ w.wss := by exact_mod_cast Nat.zero_le _
    linarith
  have h2 : (w.wss : Rat) < 18446744073709551616 := by
    have : (w.wss : Rat) ≤ 2 ^ 53 := by exact_mod_cast hn
    have h53 : (2 : Rat) ^ 53 < 18446744073709551616 := by norm_num
    linarith
  rw [if_pos ⟨h1, h2⟩, floor_toNat_nat]

omit hr in
theorem fraction_mem {f : Rat} (h : f ∈ fractions) : f ≤ 1 ∧ 2 * minNormal ≤ f := by
  have hm := minNormal_thousandth
  unfold fractions at h
  simp only [List.mem_cons, List.mem_nil_iff, or_false] at h
  rcases h with rfl | rfl | rfl | rfl | rfl | rfl | rfl | rfl <;> constructor <;> norm_num at * <;> linarith

theorem pairwise_sizes (n : Nat) (P : Rat → Prop) [DecidablePred P] : ∀ fs : List Rat, fs.Pairwise (· ≤ ·) →
    (fs.filterMap (fun f => if P f then some (toLong (rd (rd (n : Rat) * rd f))) else none)).Pairwise (· ≤ ·) := by
  intro fs h
  refine List.Pairwise.filterMap _ ?_ h
  intro f g hfg a ha b hb
  by_cases hf : P f
  · by_cases hg : P g
    · simp only [if_pos hf, Option.some.injEq, if_pos hg] at ha hb
      rw [← ha, ← hb]
      apply floor_toNat_mono
      apply hr.mono
      have h1 : rd f ≤ rd g := hr.mono _ _ hfg
      have h2 : (0 : Rat) ≤ rd (n : Rat) := by
        have := hr.mono 0 n (by exact_mod_cast Nat.zero_le n)
        rwa [rd_zero hr] at this
      exact mul_le_mul_of_nonneg_left h1 h2
    · simp [if_neg hg] at hb
  · simp [if_neg hf] at ha

/-- the fraction is kept -/
def Keep (rd : Rat → Rat) (w : Wss) (f : Rat) : Prop := worthwhile w.ignoreSize ≤ toLong (rd (rd (w.obj : Rat) * rd f))

omit hr in
instance (rd : Rat → Rat) (w : Wss) : DecidablePred (Keep rd w) := fun f => by unfold Keep; exact inferInstance

omit hr in
theorem autoList_eq (w : Wss) : autoList rd w =
    fractions.filterMap (fun f => if Keep rd w f then some (toLong (rd (rd (w.wss : Rat) * rd f))) else none) := by
  unfold autoList
  congr 1
  funext f
  have hc : ((if w.ignoreSize = true then decide (toLong (rd (rd (w.obj : Rat) * rd f)) > 4) else decide (toLong (rd (rd (w.obj : Rat) * rd f)) ≥ 100)) = true) ↔
      Keep rd w f := by
    unfold Keep worthwhile
    by_cases hi : w.ignoreSize = true
    · rw [if_pos hi, if_pos hi, decide_eq_true_eq]
      exact Iff.rfl
    · rw [if_neg hi, if_neg hi, decide_eq_true_eq]
  by_cases hk : Keep rd w f
  · rw [if_pos hk, if_pos (hc.2 hk)]
  · rw [if_neg hk, if_neg (fun h => hk (hc.1 h))]

omit hr in
theorem fractions_sorted : fractions.Pairwise (· ≤ ·) := by unfold fractions; decide +kernel

omit hr in
theorem fractions_eq : fractions = autoFractions := by decide +kernel

omit hr in
theorem forall₂_filterMap {α β : Type} (P : α → Prop) [DecidablePred P] (g : α → β) (R : α → β → Prop) : ∀ l : List α, (∀ a ∈ l, R a (g a)) →
    List.Forall₂ R (l.filter (fun a => decide (P a))) (l.filterMap (fun a => if P a then some (g a) else none)) := by
  intro l
  induction l with
  | nil => intro _; exact List.Forall₂.nil
  | cons a l ih =>
    intro h
    by_cases hp : P a
    · rw [List.filter_cons_of_pos (by simpa using hp), List.filterMap_cons_some (by rw [if_pos hp])]
      exact List.Forall₂.cons (h a (by simp)) (ih (fun x hx => h x (List.mem_cons_of_mem _ hx)))
    · rw [List.filter_cons_of_neg (by simpa using hp), List.filterMap_cons_none (by rw [if_neg hp])]
      exact ih (fun x hx => h x (List.mem_cons_of_mem _ hx))

theorem autoSizes_spec {w : Wss} (hw : w.wss ≤ 2 ^ 50) (ho : w.obj ≤ 2 ^ 50) :
    ∃ fs, fs.Sublist autoFractions ∧ (∀ f ∈ fs, (worthwhile w.ignoreSize : Rat) < f * w.obj + 1) ∧
      (∀ f ∈ autoFractions, f ∉ fs → f * w.obj < (worthwhile w.ignoreSize : Rat) + 1) ∧
      (if fs = [] then autoSizes rd w = .error .abort
       else ∃ l, autoSizes rd w = .ok l ∧ List.Forall₂ (fun f z => AboutFraction f w.wss z ∧ z ≤ w.wss) fs l ∧ l.Pairwise (· ≤ ·)) := by
  have hfl := forall₂_filterMap (Keep rd w) (fun f => toLong (rd (rd (w.wss : Rat) * rd f))) (fun f z => AboutFraction f w.wss z ∧ z ≤ w.wss) fractions
    (fun f hf => about_product hr hw (fraction_mem hf).1 (.inr (fraction_mem hf).2))
  have hs := pairwise_sizes hr w.wss (Keep rd w) fractions fractions_sorted
  refine ⟨fractions.filter (fun f => decide (Keep rd w f)), ?_, ?_, ?_, ?_⟩
  · rw [← fractions_eq]
    exact List.filter_sublist
  · intro f hf
    obtain ⟨h1, h2⟩ := List.mem_filter.1 hf
    have hk : Keep rd w f := by simpa using h2
    have ha := (about_product hr ho (fraction_mem h1).1 (.inr (fraction_mem h1).2)).1
    have : (worthwhile w.ignoreSize : Rat) ≤ (toLong (rd (rd (w.obj : Rat) * rd f)) : Nat) := by exact_mod_cast hk
    exact lt_of_le_of_lt this ha.1
  · intro f hf hn
    rw [← fractions_eq] at hf
    have hk : ¬ Keep rd w f := by
      intro hk
      exact hn (List.mem_filter.2 ⟨hf, by simpa using hk⟩)
    obtain ⟨a, b, c, d⟩ := product hr ho (fraction_mem hf).1 (.inr (fraction_mem hf).2)
    have h3 := (floor_toNat a).2
    have h4 : toLong (rd (rd (w.obj : Rat) * rd f)) + 1 ≤ worthwhile w.ignoreSize := by unfold Keep at hk; omega
    have h5 : ((toLong (rd (rd (w.obj : Rat) * rd f)) : Nat) : Rat) + 1 ≤ (worthwhile w.ignoreSize : Nat) := by exact_mod_cast h4
    unfold toLong at h5
    linarith
  · unfold autoSizes
    rw [autoList_eq]
    generalize hg : fractions.filterMap (fun f => if Keep rd w f then some (toLong (rd (rd (w.wss : Rat) * rd f))) else none) = l at *
    generalize fractions.filter (fun f => decide (Keep rd w f)) = fs at *
    cases hfl with
    | nil => simp
    | @cons f z fs l h1 h2 =>
      rw [if_neg (by simp)]
      exact ⟨_, rfl, List.Forall₂.cons h1 h2, hs⟩

end Verif.Cli
