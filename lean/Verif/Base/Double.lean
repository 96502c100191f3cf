import Mathlib.Data.Int.Order.Basic
/-!
# Conversion of a 64-bit integer to `double`

IEEE 754 binary64, round to nearest, ties to even: an integer keeps its 53 most significant bits.  The result is again an
integer, so the model does not need fractions here.  (No C source: this is what C does in `double x = int64`.)
-/

namespace Verif

/-- round `n` to a multiple of `2^e`, to nearest, ties to even -/
def roundTo (e n : Nat) : Nat :=
  let q := n / 2 ^ e
  let r := n % 2 ^ e
  if 2 * r > 2 ^ e ∨ (2 * r = 2 ^ e ∧ q % 2 = 1) then (q + 1) * 2 ^ e else q * 2 ^ e

/-- `(double)n` for a non-negative integer -/
def dblNat (n : Nat) : Nat := if n < 2 ^ 53 then n else roundTo (Nat.log2 n - 52) n

/-- `(double)n` -/
def dbl : Int → Int
  | .ofNat n => dblNat n
  | .negSucc n => -(dblNat (n + 1) : Int)

end Verif
