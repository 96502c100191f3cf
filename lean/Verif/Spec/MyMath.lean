/-! # Integer helper specifications -/

namespace Verif.Spec

/-- `p` is the least power of two that is at least `n`. -/
def LeastPow2 (n p : Nat) : Prop := (∃ k, p = 2 ^ k) ∧ n ≤ p ∧ ∀ k, n ≤ 2 ^ k → p ≤ 2 ^ k

/-- `r` is the floor of the binary logarithm of `n`. -/
def FloorLog2 (n r : Nat) : Prop := 2 ^ r ≤ n ∧ n < 2 ^ (r + 1)

end Verif.Spec
