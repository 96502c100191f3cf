import Verif.Utils.MyMath
import Verif.Spec.MyMath
import Mathlib.Data.Nat.Log
import Mathlib.Data.Nat.Bitwise
import Mathlib.Algebra.Order.Ring.Nat
import Mathlib.Tactic.Ring
/-!
# C42: integer helpers
-/

namespace Verif.Props
open Verif Verif.Spec Verif.MyMath

/-! ### Smearing -/

/-- every set bit has been copied to the `w - 1` places below it -/
def Smear (n m w : Nat) : Prop := ∀ i, m.testBit i = true ↔ ∃ j < w, n.testBit (i + j) = true

theorem Smear.step {n m w : Nat} (h : Smear n m w) : Smear n (m ||| (m >>> w)) (2 * w) := by
  intro i
  rw [Nat.testBit_or, Nat.testBit_shiftRight, Bool.or_eq_true, h i, h (w + i)]
  constructor
  · rintro (⟨j, hj, hb⟩ | ⟨j, hj, hb⟩)
    · exact ⟨j, by omega, hb⟩
    · exact ⟨w + j, by omega, by rw [show i + (w + j) = w + i + j by omega]; exact hb⟩
  · rintro ⟨j, hj, hb⟩
    by_cases hjw : j < w
    · exact Or.inl ⟨j, hjw, hb⟩
    · exact Or.inr ⟨j - w, by omega, by rw [show w + i + (j - w) = i + j by omega]; exact hb⟩

theorem smear_start (n : Nat) : Smear n n 1 := by
  intro i
  constructor
  · intro h; exact ⟨0, by omega, h⟩
  · rintro ⟨j, hj, h⟩
    have : j = 0 := by omega
    subst this; exact h

theorem testBit_top {n k : Nat} (h1 : 2 ^ k ≤ n) (h2 : n < 2 ^ (k + 1)) : n.testBit k = true := by
  rw [Nat.testBit_eq_decide_div_mod_eq]
  have : n / 2 ^ k = 1 := by
    have e : 2 ^ (k + 1) = 2 * 2 ^ k := by rw [Nat.pow_succ]; omega
    apply Nat.div_eq_of_lt_le
    · omega
    · show n < (1 + 1) * 2 ^ k
      omega
  rw [this]; rfl

theorem log2_bounds {n : Nat} (h0 : n ≠ 0) : 2 ^ Nat.log2 n ≤ n ∧ n < 2 ^ (Nat.log2 n + 1) :=
  ⟨Nat.log2_self_le h0, Nat.lt_log2_self⟩

theorem smear_all {n m : Nat} (h : Smear n m 64) (hn : n < 2 ^ 64) (h0 : n ≠ 0) : m = 2 ^ (Nat.log2 n + 1) - 1 := by
  apply Nat.eq_of_testBit_eq
  intro i
  rw [Nat.testBit_two_pow_sub_one]
  have hlog : Nat.log2 n < 64 := (Nat.log2_lt h0).2 hn
  have htop : n.testBit (Nat.log2 n) = true := testBit_top (log2_bounds h0).1 (log2_bounds h0).2
  rw [Bool.eq_iff_iff, h i, decide_eq_true_eq]
  constructor
  · rintro ⟨j, _, hb⟩
    have h1 : 2 ^ (i + j) ≤ n := Nat.ge_two_pow_of_testBit hb
    have : i + j ≤ Nat.log2 n := (Nat.le_log2 h0).2 h1
    omega
  · intro hi
    exact ⟨Nat.log2 n - i, by omega, by rw [show i + (Nat.log2 n - i) = Nat.log2 n by omega]; exact htop⟩

theorem pow_le_pow {a b : Nat} (h : a ≤ b) : 2 ^ a ≤ 2 ^ b := Nat.pow_le_pow_right (by omega) h

theorem lt_of_pow_lt {a b : Nat} (h : 2 ^ a < 2 ^ b) : a < b := by
  by_contra hn
  have := pow_le_pow (a := b) (b := a) (by omega)
  omega

theorem leastPow2_of_log {n : Nat} (h1 : 2 ≤ n) : LeastPow2 n (2 ^ (Nat.log2 (n - 1) + 1)) := by
  obtain ⟨l1, l2⟩ := log2_bounds (n := n - 1) (by omega)
  refine ⟨⟨_, rfl⟩, by omega, ?_⟩
  intro k hk
  apply pow_le_pow
  have : 2 ^ Nat.log2 (n - 1) < 2 ^ k := by omega
  exact lt_of_pow_lt this

/-- C42: for `1 ≤ n ≤ 2^63` the second helper returns the least power of two that is at least `n`. -/
theorem C42_nextPow2V2 (n : Nat) (h1 : 1 ≤ n) (h2 : n ≤ 2 ^ 63) : LeastPow2 n (nextPow2V2 n) := by
  have e0 : (n + (w64 - 1)) % w64 = n - 1 := by
    simp only [w64]; omega
  have hsm := ((((((smear_start (n - 1)).step).step).step).step).step).step
  simp only [Nat.reduceMul] at hsm
  by_cases hn : n = 1
  · subst hn
    have : nextPow2V2 1 = 1 := by decide
    rw [this]
    exact ⟨⟨0, rfl⟩, by omega, fun k _ => Nat.one_le_two_pow⟩
  · have hm := smear_all hsm (by omega) (by omega)
    have hl : Nat.log2 (n - 1) + 1 ≤ 63 := by
      have : Nat.log2 (n - 1) < 63 := (Nat.log2_lt (by omega)).2 (by omega)
      omega
    have hle := pow_le_pow hl
    have hpos : 1 ≤ 2 ^ (Nat.log2 (n - 1) + 1) := Nat.one_le_two_pow
    have : nextPow2V2 n = 2 ^ (Nat.log2 (n - 1) + 1) := by
      unfold nextPow2V2
      simp only [e0]
      rw [hm]
      simp only [w64]
      rw [Nat.mod_eq_of_lt (by omega)]; omega
    rw [this]
    exact leastPow2_of_log (by omega)

/-- outside that range it returns 0: there is no 64-bit answer for `n > 2^63`, and for `n = 0` the answer should be 1 -/
theorem C42_nextPow2V2_overflow (n : Nat) (h1 : 2 ^ 63 < n) (h2 : n < w64) : nextPow2V2 n = 0 := by
  have e0 : (n + (w64 - 1)) % w64 = n - 1 := by
    simp only [w64] at *; omega
  have hsm := ((((((smear_start (n - 1)).step).step).step).step).step).step
  simp only [Nat.reduceMul] at hsm
  simp only [w64] at h2
  have hm := smear_all hsm (by omega) (by omega)
  have hl : Nat.log2 (n - 1) = 63 := by
    have a : Nat.log2 (n - 1) < 64 := (Nat.log2_lt (by omega)).2 (by omega)
    have b : 63 ≤ Nat.log2 (n - 1) := (Nat.le_log2 (by omega)).2 (by omega)
    omega
  unfold nextPow2V2
  simp only [e0]
  rw [hm, hl]
  decide

example : nextPow2V2 1000 = 1024 ∧ nextPow2V2 1024 = 1024 ∧ nextPow2V2 1025 = 2048 ∧ nextPow2V2 0 = 0 := by decide +kernel

/-- the test `n & (n - 1)` -/
theorem and_pred {n : Nat} (h0 : n ≠ 0) : n &&& (n - 1) = 0 ↔ n = 2 ^ Nat.log2 n := by
  obtain ⟨l1, l2⟩ := log2_bounds h0
  constructor
  · intro h
    by_contra hne
    have hb : n.testBit (Nat.log2 n) = true := testBit_top l1 l2
    have hb' : (n - 1).testBit (Nat.log2 n) = true := testBit_top (by omega) (by omega)
    have : (n &&& (n - 1)).testBit (Nat.log2 n) = true := by rw [Nat.testBit_and, hb, hb']; rfl
    rw [h] at this; simp at this
  · intro h
    rw [h]
    apply Nat.eq_of_testBit_eq
    intro i
    rw [Nat.testBit_and, Nat.testBit_two_pow_sub_one, Nat.testBit_two_pow, Nat.zero_testBit]
    by_cases e : Nat.log2 n = i
    · simp [e]
    · simp [e]

/-- C42: for `1 ≤ n ≤ 2^62` the first helper returns the least power of two that is at least `n`. -/
theorem C42_nextPow2_partial (n : Nat) (h1 : 1 ≤ n) (h2 : n ≤ 2 ^ 62) : ∃ p : Nat, nextPow2 n = .ok (p : Int) ∧ LeastPow2 n p := by
  obtain ⟨l1, l2⟩ := log2_bounds (n := n) (by omega)
  by_cases hp : n = 2 ^ Nat.log2 n
  · refine ⟨n, ?_, ⟨⟨_, hp⟩, Nat.le_refl _, fun k hk => hk⟩⟩
    rw [nextPow2, if_pos ((and_pred (by omega)).2 hp), asLL, if_pos (by omega)]
  · have hl : Nat.log2 n < 62 := by
      apply lt_of_pow_lt
      omega
    refine ⟨2 ^ (Nat.log2 n + 1), ?_, ?_⟩
    · rw [nextPow2, if_neg (fun h => hp ((and_pred (by omega)).1 h)), clz, if_neg (by omega)]
      simp only [Res.bind_ok]
      rw [if_neg (by omega)]
      have e : (2 ^ 63 : Nat) >>> (63 - Nat.log2 n - 1) = 2 ^ (Nat.log2 n + 1) := by
        rw [Nat.shiftRight_eq_div_pow, Nat.pow_div (by omega) (by omega)]
        congr 1; omega
      rw [e, asLL, if_pos (Nat.pow_lt_pow_right (by omega) (by omega))]
    · refine ⟨⟨_, rfl⟩, by omega, ?_⟩
      intro k hk
      apply pow_le_pow
      apply lt_of_pow_lt (a := Nat.log2 n) (b := k)
      omega

/-- The first helper is wrong above `2^62` (the result, `2^63`, is not a `long long`): it returns a negative number. -/
theorem C42_nextPow2_fails (n : Nat) (h1 : 2 ^ 62 < n) (h2 : n < 2 ^ 63) : nextPow2 n = .ok (-(2 ^ 63)) := by
  have hl : Nat.log2 n = 62 := by
    have a : Nat.log2 n < 63 := (Nat.log2_lt (by omega)).2 (by omega)
    have b : 62 ≤ Nat.log2 n := (Nat.le_log2 (by omega)).2 (by omega)
    omega
  rw [nextPow2, if_neg (fun h => by have := (and_pred (by omega)).1 h; rw [hl] at this; omega), clz, if_neg (by omega), hl]
  decide

theorem nextPow2_zero : nextPow2 0 = .ok 0 := by decide

example : nextPow2 1000 = .ok 1024 ∧ nextPow2 1024 = .ok 1024 ∧ nextPow2 1025 = .ok 2048 := by decide +kernel

theorem log2Loop_eq : ∀ (n r : Nat), n ≠ 0 → FloorLog2 n (log2Loop n r - r) ∧ r ≤ log2Loop n r := by
  intro n
  induction n using Nat.strong_induction_on with
  | _ n ih =>
    intro r h0
    rw [log2Loop]
    split
    · rename_i h
      rw [Nat.shiftRight_eq_div_pow] at h
      rw [Nat.sub_self]
      exact ⟨⟨by omega, by omega⟩, Nat.le_refl _⟩
    · rename_i h
      rw [Nat.shiftRight_eq_div_pow] at h ⊢
      obtain ⟨⟨a, b⟩, c⟩ := ih (n / 2 ^ 1) (by omega) (r + 1) h
      refine ⟨?_, by omega⟩
      have e : log2Loop (n / 2 ^ 1) (r + 1) - r = log2Loop (n / 2 ^ 1) (r + 1) - (r + 1) + 1 := by omega
      rw [e]
      refine ⟨?_, ?_⟩
      · rw [Nat.pow_succ]; omega
      · rw [Nat.pow_succ]; omega

/-- C42: `log2_ull` is the floor logarithm of every positive number (and 0 for 0). -/
theorem C42_log2Ull (n : Nat) : (n ≠ 0 → FloorLog2 n (log2Ull n)) ∧ log2Ull 0 = 0 := by
  refine ⟨fun h => ?_, ?_⟩
  · have := (log2Loop_eq n 0 h).1
    simpa [log2Ull] using this
  · rw [log2Ull, log2Loop]; simp

/-- `log2_v2` is not the floor logarithm but one more, for every positive number, and has no defined result for 0. -/
theorem C42_log2V2_fails (n : Nat) (h : n < w64) : (n ≠ 0 → ∃ r, log2V2 n = .ok (r + 1) ∧ FloorLog2 n r) ∧
    log2V2 0 = .error .outOfBounds := by
  refine ⟨fun h0 => ⟨Nat.log2 n, ?_, log2_bounds h0⟩, rfl⟩
  rw [log2V2, clz, if_neg h0]
  simp only [Res.bind_ok]
  have hl : Nat.log2 n < 64 := (Nat.log2_lt h0).2 h
  congr 1; omega

example : log2Ull 1000 = 9 ∧ log2V2 1000 = .ok 10 := by decide +kernel

/-! ### The random generator -/

/-- `1 + a + … + a^(n-1)` -/
def geo (a : Nat) : Nat → Nat
  | 0 => 0
  | n + 1 => geo a n + a ^ n

theorem geo_mul (b n : Nat) : geo (b + 1) n * b + 1 = (b + 1) ^ n := by
  induction n with
  | zero => simp [geo]
  | succ n ih =>
    rw [geo, Nat.add_mul, pow_succ, Nat.mul_add, Nat.mul_one]
    omega

theorem geo_add (a m n : Nat) : geo a (m + n) = geo a m + a ^ m * geo a n := by
  induction n with
  | zero => rfl
  | succ n ih =>
    rw [← Nat.add_assoc, geo, ih, geo, Nat.mul_add, pow_add]; omega

theorem pow_mod4 {a : Nat} (ha : a % 4 = 1) (n : Nat) : a ^ n % 4 = 1 := by
  induction n with
  | zero => rfl
  | succ n ih => rw [pow_succ, Nat.mul_mod, ih, ha]

theorem geo_odd {a : Nat} (ha : a % 4 = 1) (n : Nat) : geo a n % 2 = n % 2 := by
  induction n with
  | zero => rfl
  | succ n ih =>
    have := pow_mod4 ha n
    rw [geo, Nat.add_mod, ih]; omega

theorem coprime_odd (k m : Nat) (hm : m % 2 = 1) : Nat.Coprime (2 ^ k) m := by
  apply Nat.Coprime.pow_left
  show Nat.gcd 2 m = 1
  rw [Nat.gcd_rec, hm]; rfl

/-- the 2-adic valuation of `1 + a + … + a^(n-1)` is that of `n` -/
theorem geo_dvd {a : Nat} (ha : a % 4 = 1) : ∀ (k n : Nat), 2 ^ k ∣ geo a n ↔ 2 ^ k ∣ n := by
  intro k
  induction k with
  | zero => intro n; simp
  | succ k ih =>
    intro n
    have ho := geo_odd ha n
    by_cases hn : n % 2 = 0
    · obtain ⟨m, rfl⟩ : ∃ m, n = m + m := ⟨n / 2, by omega⟩
      have e : geo a (m + m) = geo a m * (a ^ m + 1) := by rw [geo_add]; ring
      have h4 := pow_mod4 ha m
      obtain ⟨q, hq⟩ : ∃ q, a ^ m + 1 = 2 * (2 * q + 1) := ⟨(a ^ m + 1) / 4, by omega⟩
      have e1 : geo a (m + m) = 2 * (geo a m * (2 * q + 1)) := by rw [e, hq]; ring
      rw [e1, show m + m = 2 * m by omega, pow_succ, Nat.mul_comm (2 ^ k) 2,
        Nat.mul_dvd_mul_iff_left (by omega), Nat.mul_dvd_mul_iff_left (by omega), ← ih m]
      constructor
      · intro h
        exact (coprime_odd k (2 * q + 1) (by omega)).dvd_of_dvd_mul_right h
      · intro h; exact Dvd.dvd.mul_right h _
    · have h2 : (2 : Nat) ∣ 2 ^ (k + 1) := Dvd.intro_left (2 ^ k) (by rw [pow_succ])
      constructor
      · intro h
        have := Nat.dvd_trans h2 h
        omega
      · intro h
        have := Nat.dvd_trans h2 h
        omega

/-- `n` steps of `x ↦ a x + c` modulo `w` -/
def lcg (a c w x : Nat) : Nat → Nat
  | 0 => x
  | n + 1 => (a * lcg a c w x n + c) % w

theorem lcg_eq (a c w x n : Nat) : lcg a c w x n % w = (a ^ n * x + geo a n * c) % w := by
  induction n with
  | zero => simp [lcg, geo]
  | succ n ih =>
    rw [lcg, Nat.mod_mod]
    have e : (a * lcg a c w x n + c) % w = (a * (a ^ n * x + geo a n * c) + c) % w := by
      rw [Nat.add_mod, Nat.mul_mod, ih, ← Nat.mul_mod, ← Nat.add_mod]
    rw [e]
    congr 1
    have g := geo_add a 1 n
    have g1 : geo a 1 = 1 := by simp [geo]
    rw [g1, pow_one, Nat.add_comm 1 n] at g
    rw [g, pow_succ]; ring

theorem lcg_back {b c k x n : Nat} (hb : b % 4 = 0) (hc : c % 2 = 1) (hx : x < 2 ^ k) :
    lcg (b + 1) c (2 ^ k) x n = x ↔ 2 ^ k ∣ n := by
  have hpos : 0 < 2 ^ k := Nat.two_pow_pos k
  have hlt : lcg (b + 1) c (2 ^ k) x n < 2 ^ k := by
    cases n with
    | zero => exact hx
    | succ n => exact Nat.mod_lt _ hpos
  have h1 : lcg (b + 1) c (2 ^ k) x n = x ↔ ((b + 1) ^ n * x + geo (b + 1) n * c) % 2 ^ k = x % 2 ^ k := by
    rw [← lcg_eq, Nat.mod_eq_of_lt hlt, Nat.mod_eq_of_lt hx]
  have e : (b + 1) ^ n * x + geo (b + 1) n * c = geo (b + 1) n * (b * x + c) + x := by
    rw [← geo_mul]; ring
  rw [h1, e]
  have h2 : (geo (b + 1) n * (b * x + c) + x) % 2 ^ k = x % 2 ^ k ↔ 2 ^ k ∣ geo (b + 1) n * (b * x + c) := by
    generalize geo (b + 1) n * (b * x + c) = y
    rw [Nat.mod_eq_of_lt hx]
    constructor
    · intro h
      have := Nat.div_add_mod (y + x) (2 ^ k)
      rw [h] at this
      exact ⟨(y + x) / 2 ^ k, by omega⟩
    · rintro ⟨q, rfl⟩
      rw [Nat.mul_add_mod, Nat.mod_eq_of_lt hx]
  rw [h2, ← geo_dvd (a := b + 1) (by omega) k n]
  constructor
  · intro h
    refine (coprime_odd k (b * x + c) ?_).dvd_of_dvd_mul_right h
    obtain ⟨q, rfl⟩ : ∃ q, b = 2 * q := ⟨b / 2, by omega⟩
    rw [Nat.mul_assoc]; omega
  · intro h; exact Dvd.dvd.mul_right h _

theorem lcg_add (a c w x m n : Nat) : lcg a c w x (m + n) = lcg a c w (lcg a c w x m) n := by
  induction n with
  | zero => rfl
  | succ n ih => rw [← Nat.add_assoc, lcg, ih]; rfl

theorem seedAfter_lcg (seed n : Nat) :
    seedAfter seed n = lcg (6364136223846793004 + 1) 1442695040888963407 (2 ^ 64) seed n := by
  induction n with
  | zero => rfl
  | succ n ih => rw [seedAfter, ih, lcg, nextRand]

theorem mod_eq_iff_dvd (w i d : Nat) (hw : 0 < w) : (i + d) % w = i % w ↔ w ∣ d := by
  constructor
  · intro h
    have h1 := Nat.div_add_mod (i + d) w
    have h2 := Nat.div_add_mod i w
    rw [h] at h1
    have hle : i / w ≤ (i + d) / w := Nat.div_le_div_right (by omega)
    refine ⟨(i + d) / w - i / w, ?_⟩
    rw [Nat.mul_sub]; omega
  · rintro ⟨q, rfl⟩
    rw [Nat.add_mul_mod_self_left]

/-- C42: from every seed the generator runs through all of the 2^64 values before it repeats one: the seeds after `i`
and after `j` calls are equal exactly when `i` and `j` differ by a multiple of 2^64. -/
theorem C42_rand_fullPeriod (seed : Nat) (hs : seed < w64) (i j : Nat) :
    seedAfter seed i = seedAfter seed j ↔ i % w64 = j % w64 := by
  have lt : ∀ n, seedAfter seed n < w64 := by
    intro n
    cases n with
    | zero => exact hs
    | succ n => exact Nat.mod_lt _ (by simp [w64])
  have key : ∀ i d, seedAfter seed (i + d) = seedAfter seed i ↔ w64 ∣ d := by
    intro i d
    have hl := lt i
    rw [seedAfter_lcg] at hl
    rw [seedAfter_lcg, seedAfter_lcg, lcg_add]
    exact lcg_back (by decide) (by decide) hl
  have hw : 0 < w64 := Nat.two_pow_pos 64
  rcases Nat.le_total i j with h | h
  · obtain ⟨d, rfl⟩ := Nat.exists_eq_add_of_le h
    rw [eq_comm, key i d, eq_comm, mod_eq_iff_dvd _ _ _ hw]
  · obtain ⟨d, rfl⟩ := Nat.exists_eq_add_of_le h
    rw [key j d, mod_eq_iff_dvd _ _ _ hw]

example : seedAfter 0 1 = 1442695040888963407 ∧ seedAfter 0 2 = 1876011003808476466 := by decide +kernel

end Verif.Props
