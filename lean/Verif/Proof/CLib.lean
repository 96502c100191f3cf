import Verif.Reader.CLib
import Verif.Spec.Csv
import Mathlib.Data.List.Basic
import Mathlib.Data.List.TakeWhile
/-!
# Numbers read from text
-/

namespace Verif.CLib
open Verif Verif.Spec.Csv

theorem digitVal_of_digit {c : Nat} (h : Digit c) : digitVal c = c - 48 := by
  obtain ⟨h1, h2⟩ := h
  unfold digitVal isDigit
  simp [h1, h2]

theorem digit_lt {c : Nat} (h : Digit c) : digitVal c < 10 := by
  have := digitVal_of_digit h
  have := h.2
  omega

theorem digitPrefix_all {s r : List Nat} (hs : ∀ c ∈ s, Digit c) (hr : ∀ c, r.head? = some c → ¬ digitVal c < 10) : digitPrefix 10 (s ++ r) = s := by
  unfold digitPrefix
  induction s with
  | nil =>
    cases r with
    | nil => rfl
    | cons c r =>
      rw [List.nil_append, List.takeWhile_cons_of_neg]
      simpa using hr c rfl
  | cons c s ih =>
    rw [List.cons_append, List.takeWhile_cons_of_pos (by simpa using digit_lt (hs c (by simp))), ih (fun x hx => hs x (List.mem_cons_of_mem _ hx))]

theorem digitPrefix_self {s : List Nat} (hs : ∀ c ∈ s, Digit c) : digitPrefix 10 s = s := by
  have := digitPrefix_all (r := []) hs (by simp)
  rwa [List.append_nil] at this

theorem number_aux (s : List Nat) (hs : ∀ c ∈ s, Digit c) (a : Nat) :
    s.foldl (fun a c => a * 10 + digitVal c) a = s.foldl (fun a c => 10 * a + (c - 48)) a := by
  induction s generalizing a with
  | nil => rfl
  | cons c s ih =>
    simp only [List.foldl_cons]
    rw [digitVal_of_digit (hs c (by simp)), Nat.mul_comm a 10]
    exact ih (fun x hx => hs x (List.mem_cons_of_mem _ hx)) _

theorem digitsVal_eq {s : List Nat} (hs : ∀ c ∈ s, Digit c) : digitsVal 10 s = number s := number_aux s hs 0

theorem number_append_aux (s : List Nat) (a : Nat) : s.foldl (fun a c => 10 * a + (c - 48)) a = a * 10 ^ s.length + number s := by
  induction s generalizing a with
  | nil => simp [number]
  | cons c s ih =>
    unfold number
    simp only [List.foldl_cons, List.length_cons]
    rw [ih, ih (10 * 0 + (c - 48)), Nat.pow_succ]
    generalize number s = x
    generalize 10 ^ s.length = y
    rw [Nat.add_mul, Nat.add_mul]
    have : 10 * a * y = a * (y * 10) := by rw [Nat.mul_comm y 10, ← Nat.mul_assoc, Nat.mul_comm 10 a]
    omega

theorem number_append (s t : List Nat) : number (s ++ t) = number s * 10 ^ t.length + number t := by
  conv => lhs; unfold number
  rw [List.foldl_append]
  exact number_append_aux t _

theorem number_lt {s : List Nat} (hs : ∀ c ∈ s, Digit c) : number s < 10 ^ s.length := by
  induction s with
  | nil => decide
  | cons c s ih =>
    have h := ih (fun x hx => hs x (List.mem_cons_of_mem _ hx))
    have e : number (c :: s) = (c - 48) * 10 ^ s.length + number s := by
      have := number_append [c] s
      simpa [number] using this
    rw [e, List.length_cons, Nat.pow_succ]
    have := (hs c (by simp)).2
    have : (c - 48) * 10 ^ s.length ≤ 9 * 10 ^ s.length := Nat.mul_le_mul_right _ (by omega)
    omega

theorem dec_digit (n : Nat) : ∀ c ∈ dec n, Digit c := by
  induction n using Nat.strongRecOn with
  | ind n ih =>
    intro c hc
    unfold dec at hc
    split at hc
    · simp only [List.mem_singleton] at hc
      exact ⟨by omega, by omega⟩
    · rename_i h
      rcases List.mem_append.1 hc with hc | hc
      · exact ih (n / 10) (by omega) c hc
      · simp only [List.mem_singleton] at hc
        exact ⟨by omega, by omega⟩

theorem number_dec (n : Nat) : number (dec n) = n := by
  induction n using Nat.strongRecOn with
  | ind n ih =>
    unfold dec
    split
    · simp [number]
    · rename_i h
      rw [number_append, ih (n / 10) (by omega)]
      simp only [number, List.length_cons, List.length_nil, List.foldl_cons, List.foldl_nil]
      omega

theorem dec_ne_nil (n : Nat) : dec n ≠ [] := by
  unfold dec
  split
  · simp
  · simp

theorem dec_head {n : Nat} (h : 0 < n) : (dec n).head? ≠ some 48 := by
  induction n using Nat.strongRecOn with
  | ind n ih =>
    unfold dec
    split
    · simp only [List.head?_cons, ne_eq, Option.some.injEq]
      omega
    · rename_i h'
      have hne := dec_ne_nil (n / 10)
      rw [List.head?_append_of_ne_nil _ hne]
      exact ih (n / 10) (by omega) (by omega)

theorem cstr_dec (n : Nat) (t : List Nat) (ht : ∀ c ∈ t, c ≠ 0) : cstr (dec n ++ t) = dec n ++ t := by
  unfold cstr
  rw [List.takeWhile_eq_self_iff]
  intro c hc
  rcases List.mem_append.1 hc with hc | hc
  · have := (dec_digit n c hc).1
    simp only [decide_eq_true_eq]
    omega
  · simpa using ht c hc

theorem dropWhile_dec (n : Nat) (t : List Nat) : (dec n ++ t).dropWhile isSpace = dec n ++ t := by
  cases h : dec n with
  | nil => exact absurd h (dec_ne_nil n)
  | cons c s =>
    have hd := dec_digit n c (by rw [h]; simp)
    rw [List.cons_append, List.dropWhile_cons_of_neg]
    unfold isSpace
    have := hd.1
    simp only [Bool.or_eq_true, beq_iff_eq, Bool.and_eq_true, decide_eq_true_eq]
    omega

theorem strtoull_dec {n : Nat} (h : n < 2 ^ 64) : strtoull (dec n) = some n := by
  have hd := dropWhile_dec n []
  rw [List.append_nil] at hd
  have hp : digitPrefix 10 (dec n) = dec n := digitPrefix_self (dec_digit n)
  have hs : splitBase (dec n) = some (if n = 0 then 8 else 10, dec n) := by
    by_cases h0 : n = 0
    · subst h0
      have e : dec 0 = [48] := by unfold dec; rfl
      rw [e]
      rfl
    · have hh := dec_head (Nat.pos_of_ne_zero h0)
      rw [if_neg h0]
      unfold splitBase
      split
      · rename_i heq; rw [heq] at hh; simp at hh
      · rename_i heq; rw [heq] at hh; simp at hh
      · rw [hp, if_neg (dec_ne_nil n)]
  unfold strtoull
  rw [hd]
  split
  · rename_i heq
    have := (dec_digit n 45 (by rw [heq]; simp)).1
    omega
  · rename_i heq
    have := (dec_digit n 43 (by rw [heq]; simp)).1
    omega
  · rw [hs]
    simp only [Option.map_some]
    by_cases h0 : n = 0
    · subst h0
      have e : dec 0 = [48] := by unfold dec; rfl
      rw [e]
      rfl
    · rw [if_neg h0, digitsVal_eq (dec_digit n), number_dec]
      unfold clamp
      congr 1
      omega

/-! ## Time stamps -/

theorem roundTo_ge {e n m : Nat} (hm : m ≤ n) (hd : 2 ^ e ∣ m) : m ≤ roundTo e n := by
  obtain ⟨k, rfl⟩ := hd
  have h1 : k ≤ n / 2 ^ e := by rw [Nat.le_div_iff_mul_le (Nat.two_pow_pos e), Nat.mul_comm]; exact hm
  have h2 : 2 ^ e * k ≤ n / 2 ^ e * 2 ^ e := by rw [Nat.mul_comm]; exact Nat.mul_le_mul_right _ h1
  unfold roundTo
  simp only
  split
  · rw [Nat.add_mul]; omega
  · exact h2

theorem roundTo_lt {e n m : Nat} (hm : 2 * n + 2 ^ e < 2 * m) (hd : 2 ^ e ∣ m) : roundTo e n < m := by
  obtain ⟨k, rfl⟩ := hd
  have hp := Nat.two_pow_pos e
  have hdm := Nat.div_add_mod n (2 ^ e)
  have h1 : n / 2 ^ e < k := by
    rw [Nat.div_lt_iff_lt_mul hp, Nat.mul_comm]
    omega
  unfold roundTo
  simp only
  split
  · rename_i hr
    have hr2 : 2 ^ e ≤ 2 * (n % 2 ^ e) := by omega
    have : (n / 2 ^ e + 1) * 2 ^ e < 2 ^ e * k := by
      by_contra hc
      have hk : k ≤ n / 2 ^ e + 1 := by
        have h3 : 2 ^ e * k ≤ 2 ^ e * (n / 2 ^ e + 1) := by rw [Nat.mul_comm (2 ^ e) (n / 2 ^ e + 1)]; omega
        exact Nat.le_of_mul_le_mul_left h3 hp
      have hk2 : k = n / 2 ^ e + 1 := by omega
      rw [hk2, Nat.mul_add] at hm
      omega
    exact this
  · rw [Nat.mul_comm]
    exact Nat.mul_lt_mul_of_pos_left h1 hp

theorem floorDbl_eq {a b : Nat} (hb : 0 < b) (ha : a < 2 ^ 53) : floorDbl a b = a / b := by
  unfold floorDbl
  by_cases h0 : a = 0
  · rw [if_pos h0, h0, Nat.zero_div]
  rw [if_neg h0]
  simp only
  generalize hlb : Nat.log2 b = lb
  have hlb1 : 2 ^ lb ≤ b := by rw [← hlb]; exact Nat.log2_self_le (by omega)
  have hlb2 : b < 2 * 2 ^ lb := by
    have := Nat.lt_log2_self (n := b)
    rw [hlb, Nat.pow_succ] at this
    omega
  have hk : 2 ^ (54 + lb) = 2 ^ 54 * 2 ^ lb := Nat.pow_add _ _ _
  generalize hK : 2 ^ (54 + lb) = K at *
  have hK1 : 2 ^ (54 + lb + 1) = 2 * K := by rw [Nat.pow_succ, hK, Nat.mul_comm]
  rw [hK1]
  generalize hQ : a * K / b = Q
  generalize hd : a / b = d
  have hs : (if a * K % b = 0 then 0 else 1) ≤ 1 := by split <;> omega
  generalize (if a * K % b = 0 then 0 else 1) = sticky at hs
  have hdm := Nat.div_add_mod a b
  have hml := Nat.mod_lt a hb
  rw [hd] at hdm
  have hKpos : 0 < K := by rw [← hK]; exact Nat.two_pow_pos _
  -- bounds on Q
  have q1 : d * K ≤ Q := by
    rw [← hQ, Nat.le_div_iff_mul_le hb]
    have : d * b ≤ a := by rw [Nat.mul_comm]; omega
    calc d * K * b = (d * b) * K := by rw [Nat.mul_right_comm]
      _ ≤ a * K := Nat.mul_le_mul_right _ this
  have q2 : Q + 2 ^ 53 < (d + 1) * K := by
    by_contra hc
    have hc : (d + 1) * K ≤ Q + 2 ^ 53 := by omega
    have h1 : Q * b ≤ a * K := by rw [← hQ]; exact Nat.div_mul_le_self _ _
    have h2 : (a + 1) * K ≤ (d + 1) * b * K := by
      refine Nat.mul_le_mul_right _ ?_
      rw [Nat.add_mul, Nat.mul_comm d b]
      omega
    have h3 : (d + 1) * K * b ≤ (Q + 2 ^ 53) * b := Nat.mul_le_mul_right _ hc
    have h4 : (d + 1) * K * b = (d + 1) * b * K := Nat.mul_right_comm _ _ _
    rw [h4, Nat.add_mul Q] at h3
    rw [Nat.add_mul] at h2
    have h5 : K ≤ 2 ^ 53 * b := by omega
    have h6 : 2 ^ 53 * b < 2 ^ 53 * (2 * 2 ^ lb) := Nat.mul_lt_mul_of_pos_left hlb2 (by decide)
    have h7 : 2 ^ 53 * (2 * 2 ^ lb) = 2 ^ 54 * 2 ^ lb := by rw [← Nat.mul_assoc]
    omega
  have q3 : Q ≤ a * 2 ^ 54 := by
    rw [← hQ]
    have : a * K ≤ a * 2 ^ 54 * b := by
      rw [hk, ← Nat.mul_assoc]
      exact Nat.mul_le_mul_left _ hlb1
    calc a * K / b ≤ a * 2 ^ 54 * b / b := Nat.div_le_div_right this
      _ = a * 2 ^ 54 := Nat.mul_div_cancel _ hb
  have hX : 2 * Q + sticky < 2 ^ 108 := by
    have : a * 2 ^ 54 ≤ (2 ^ 53 - 1) * 2 ^ 54 := Nat.mul_le_mul_right _ (by omega)
    have e : (2 ^ 53 - 1) * 2 ^ 54 * 2 + 1 < 2 ^ 108 := by decide
    omega
  generalize hE : Nat.log2 (2 * Q + sticky) - 52 = E
  have hE1 : E ≤ 55 := by
    have : Nat.log2 (2 * Q + sticky) < 108 := by
      by_cases hz : 2 * Q + sticky = 0
      · rw [hz]; decide
      · rw [Nat.log2_lt hz]; exact hX
    omega
  have hdvd : 2 ^ E ∣ 2 * K := by
    rw [← hK1]
    exact Nat.pow_dvd_pow 2 (by omega)
  have r1 : d * (2 * K) ≤ roundTo E (2 * Q + sticky) := by
    refine roundTo_ge ?_ (Nat.dvd_mul_left_of_dvd hdvd d)
    have : d * (2 * K) = 2 * (d * K) := by rw [Nat.mul_left_comm]
    omega
  have r2 : roundTo E (2 * Q + sticky) < (d + 1) * (2 * K) := by
    refine roundTo_lt ?_ (Nat.dvd_mul_left_of_dvd hdvd _)
    have e1 : (d + 1) * (2 * K) = 2 * ((d + 1) * K) := by rw [Nat.mul_left_comm]
    have e2 : 2 ^ E ≤ 2 ^ 55 := Nat.pow_le_pow_right (by decide) hE1
    have e3 : (2 : Nat) ^ 55 = 4 * 2 ^ 53 := by decide
    omega
  have hpos : 0 < 2 * K := by omega
  rw [Nat.div_eq_iff hpos]
  constructor
  · exact r1
  · rw [Nat.add_mul] at r2
    omega

theorem atof_time {t : Nat} {f : List Nat} (h : TimeText t f) : atofU64 (cstr f) = .ok t := by
  cases h with
  | whole ht =>
    have hc := cstr_dec t [] (by simp)
    have hd := dropWhile_dec t []
    rw [List.append_nil] at hc hd
    rw [hc]
    unfold atofU64
    rw [hd]
    split
    · rename_i heq
      have := (dec_digit t 45 (by rw [heq]; simp)).1
      omega
    · rename_i hne
      simp only [digitPrefix_self (dec_digit t), List.drop_length, List.append_nil, digitsVal_eq (dec_digit t), number_dec, dec_ne_nil, false_and, if_false,
        List.length_nil, Int.natCast_zero, Int.sub_zero, ge_iff_le, Int.le_refl, if_true, Int.toNat_zero, Nat.pow_zero, Nat.mul_one]
      rw [floorDbl_eq (by decide) ht, Nat.div_one, if_pos]
      omega
  | decimals hg hn =>
    rename_i g
    have hg0 : ∀ c ∈ 46 :: g, c ≠ 0 := by
      intro c hc
      rcases List.mem_cons.1 hc with rfl | hc
      · decide
      · have := (hg c hc).1; omega
    rw [cstr_dec t (46 :: g) hg0]
    unfold atofU64
    rw [dropWhile_dec]
    split
    · rename_i heq
      have hm : (dec t ++ 46 :: g).head? = some 45 := by rw [heq]; rfl
      rw [List.head?_append_of_ne_nil _ (dec_ne_nil t)] at hm
      have := (dec_digit t 45 (List.mem_of_head? hm)).1
      omega
    · have hp : digitPrefix 10 (dec t ++ 46 :: g) = dec t := digitPrefix_all (dec_digit t) (by intro c hc; simp only [List.head?_cons, Option.some.injEq] at hc; subst hc; decide)
      have hall : ∀ c ∈ dec t ++ g, Digit c := by
        intro c hc
        exact (List.mem_append.1 hc).elim (dec_digit t c) (hg c)
      have hv : number (dec t ++ g) / 10 ^ g.length = t := by
        rw [number_append, number_dec, Nat.mul_comm, Nat.mul_add_div (Nat.pow_pos (by decide)), Nat.div_eq_of_lt (number_lt hg), Nat.add_zero]
      have hle : number (dec t ++ g) / 10 ^ g.length ≤ number (dec t ++ g) := Nat.div_le_self _ _
      simp only [hp, List.drop_left, digitPrefix_self hg, List.drop_length, digitsVal_eq hall, dec_ne_nil, false_and, if_false]
      by_cases hl : g = []
      · subst hl
        simp only [List.length_nil, Int.natCast_zero, Int.sub_zero, ge_iff_le, Int.le_refl, if_true, Int.toNat_zero, Nat.pow_zero, Nat.mul_one]
        rw [List.append_nil] at *
        rw [floorDbl_eq (by decide) hn, Nat.div_one, number_dec, if_pos]
        rw [number_dec] at hn
        omega
      · have hl2 : 0 < g.length := List.length_pos_iff.2 hl
        have hge : ¬ ((0 : Int) - (g.length : Int) ≥ 0) := by omega
        simp only [if_neg hge]
        have e : (-((0 : Int) - (g.length : Int))).toNat = g.length := by omega
        rw [e, floorDbl_eq (Nat.pow_pos (by decide)) hn, hv, if_pos]
        omega

end Verif.CLib
