import Verif.Base.Double
import Verif.Base.Types
import Mathlib.Tactic.Ring
import Mathlib.Order.Monotone.Basic
/-! # Conversion to `double` keeps the order, and is exact up to 2^53 -/

namespace Verif

theorem roundTo_ge {e n c : Nat} (h : c * 2 ^ e ≤ n) : c * 2 ^ e ≤ roundTo e n := by
  have hp : 0 < 2 ^ e := Nat.two_pow_pos e
  have hq : c ≤ n / 2 ^ e := (Nat.le_div_iff_mul_le hp).2 h
  unfold roundTo
  simp only
  split
  · exact Nat.mul_le_mul_right _ (Nat.le_succ_of_le hq)
  · exact Nat.mul_le_mul_right _ hq

theorem roundTo_le {e n c : Nat} (h : n ≤ c * 2 ^ e) : roundTo e n ≤ c * 2 ^ e := by
  have hp : 0 < 2 ^ e := Nat.two_pow_pos e
  have hd := Nat.div_add_mod n (2 ^ e)
  have hr := Nat.mod_lt n hp
  have hq : n / 2 ^ e ≤ c := by
    have := Nat.div_le_div_right (c := 2 ^ e) h
    rwa [Nat.mul_div_cancel _ hp] at this
  unfold roundTo
  simp only
  generalize n / 2 ^ e = q at *
  generalize n % 2 ^ e = r at *
  generalize 2 ^ e = p at *
  rcases Nat.lt_or_eq_of_le hq with hlt | rfl
  · have h1 : (q + 1) * p ≤ c * p := Nat.mul_le_mul_right _ hlt
    have h2 : q * p ≤ (q + 1) * p := Nat.mul_le_mul_right _ (Nat.le_succ q)
    split <;> omega
  · have : r = 0 := by rw [Nat.mul_comm] at hd; omega
    subst this
    rw [if_neg (by omega)]

theorem roundTo_mono (e : Nat) {n m : Nat} (h : n ≤ m) : roundTo e n ≤ roundTo e m := by
  have hp : 0 < 2 ^ e := Nat.two_pow_pos e
  have hq : n / 2 ^ e ≤ m / 2 ^ e := Nat.div_le_div_right h
  rcases Nat.lt_or_eq_of_le hq with hlt | heq
  · have h1 : n ≤ (n / 2 ^ e + 1) * 2 ^ e := by
      have := Nat.lt_div_mul_add (a := n) hp
      rw [Nat.add_mul]; omega
    have h2 : (n / 2 ^ e + 1) * 2 ^ e ≤ m / 2 ^ e * 2 ^ e := Nat.mul_le_mul_right _ hlt
    exact (roundTo_le h1).trans (h2.trans (roundTo_ge (Nat.div_mul_le_self m _)))
  · have hd := Nat.div_add_mod n (2 ^ e)
    have hd' := Nat.div_add_mod m (2 ^ e)
    unfold roundTo
    simp only
    rw [heq] at hd ⊢
    have hr : n % 2 ^ e ≤ m % 2 ^ e := by omega
    generalize m / 2 ^ e = q at *
    generalize n % 2 ^ e = r at *
    generalize m % 2 ^ e = r' at *
    generalize 2 ^ e = p at *
    have h2 : q * p ≤ (q + 1) * p := Nat.mul_le_mul_right _ (Nat.le_succ q)
    split <;> split <;> omega

theorem dblNat_bounds {n : Nat} (h : 2 ^ 53 ≤ n) : 2 ^ Nat.log2 n ≤ dblNat n ∧ dblNat n ≤ 2 ^ (Nat.log2 n + 1) ∧ 53 ≤ Nat.log2 n := by
  have hn0 : n ≠ 0 := by have := Nat.two_pow_pos 53; omega
  have hL : 53 ≤ Nat.log2 n := (Nat.le_log2 hn0).2 h
  have h1 : 2 ^ Nat.log2 n ≤ n := Nat.log2_self_le hn0
  have h2 : n < 2 ^ (Nat.log2 n + 1) := Nat.lt_log2_self
  have e1 : 2 ^ Nat.log2 n = 2 ^ 52 * 2 ^ (Nat.log2 n - 52) := by rw [← Nat.pow_add]; congr 1; omega
  have e2 : 2 ^ (Nat.log2 n + 1) = 2 ^ 53 * 2 ^ (Nat.log2 n - 52) := by rw [← Nat.pow_add]; congr 1; omega
  simp only [dblNat, if_neg (Nat.not_lt.2 h)]
  refine ⟨?_, ?_, hL⟩
  · rw [e1] at h1 ⊢; exact roundTo_ge h1
  · rw [e2] at h2 ⊢; exact roundTo_le h2.le

theorem dblNat_mono {n m : Nat} (h : n ≤ m) : dblNat n ≤ dblNat m := by
  by_cases hm : m < 2 ^ 53
  · simp only [dblNat, if_pos hm, if_pos (Nat.lt_of_le_of_lt h hm)]; exact h
  · have hm' := Nat.not_lt.1 hm
    obtain ⟨b1, b2, b3⟩ := dblNat_bounds hm'
    by_cases hn : n < 2 ^ 53
    · have : dblNat n = n := by simp only [dblNat, if_pos hn]
      rw [this]
      have : 2 ^ 53 ≤ 2 ^ Nat.log2 m := Nat.pow_le_pow_right (by omega) b3
      omega
    · have hn' := Nat.not_lt.1 hn
      obtain ⟨a1, a2, a3⟩ := dblNat_bounds hn'
      have hn0 : n ≠ 0 := by have := Nat.two_pow_pos 53; omega
      have hm0 : m ≠ 0 := by omega
      have hLL : Nat.log2 n ≤ Nat.log2 m := (Nat.le_log2 hm0).2 ((Nat.log2_self_le hn0).trans h)
      rcases Nat.lt_or_eq_of_le hLL with hlt | heq
      · have : 2 ^ (Nat.log2 n + 1) ≤ 2 ^ Nat.log2 m := Nat.pow_le_pow_right (by omega) hlt
        omega
      · simp only [dblNat, if_neg hn, if_neg hm, heq]
        exact roundTo_mono _ h

theorem dblNat_exact {n : Nat} (h : n ≤ 2 ^ 53) : dblNat n = n := by
  rcases Nat.lt_or_eq_of_le h with hlt | rfl
  · simp only [dblNat, if_pos hlt]
  · decide

/-- Conversion to `double` never reverses an order. -/
theorem dbl_mono : Monotone dbl := by
  intro a b h
  cases a with
  | ofNat a => cases b with
    | ofNat b =>
      have := dblNat_mono (n := a) (m := b) (by simpa using h)
      simp only [dbl]; omega
    | negSucc b => simp at h; omega
  | negSucc a => cases b with
    | ofNat b => simp only [dbl]; omega
    | negSucc b =>
      have := dblNat_mono (n := b + 1) (m := a + 1) (by omega)
      simp only [dbl]; omega

/-- Values that the priority queue compares exactly: up to 2^53 in magnitude, and the sentinel for "never again". -/
def ExactDbl (n : Int) : Prop := (-9007199254740992 ≤ n ∧ n ≤ 9007199254740992) ∨ n = int64Max

theorem dbl_exact {n : Int} (h : -9007199254740992 ≤ n ∧ n ≤ 9007199254740992) : dbl n = n := by
  cases n with
  | ofNat a => simp only [dbl]; rw [dblNat_exact (by have := h.2; simp at this; omega)]; rfl
  | negSucc a => simp only [dbl]; rw [dblNat_exact (by have := h.1; omega)]; omega

theorem dbl_max : dbl int64Max = 9223372036854775808 := by decide

theorem ExactDbl.le_of_dbl {a b : Int} (ha : ExactDbl a) (hb : ExactDbl b) (h : dbl a ≤ dbl b) : a ≤ b := by
  rcases ha with ha | rfl <;> rcases hb with hb | rfl
  · rwa [dbl_exact ha, dbl_exact hb] at h
  · simp only [int64Max]; omega
  · rw [dbl_exact hb, dbl_max] at h; omega
  · exact le_refl _

end Verif
