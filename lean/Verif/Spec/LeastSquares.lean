import Mathlib.Algebra.Field.Basic
import Mathlib.Algebra.BigOperators.Group.List.Basic

/-!
# Least squares

The line `y = m x + b` fits points the better the smaller the sum of the squares of the vertical distances is.
-/

namespace Verif.LeastSquares

/-- The sum of the squares of the vertical distances of the points from the line `y = m x + b`. -/
def error {F : Type} [Field F] (pts : List (F × F)) (m b : F) : F := (pts.map (fun p => (p.2 - (m * p.1 + b)) ^ 2)).sum

/-- `m` and `b` are the line with the least error: any other line has a greater one. -/
def IsBest {F : Type} [Field F] [LT F] (pts : List (F × F)) (m b : F) : Prop := ∀ m' b', (m', b') ≠ (m, b) → error pts m b < error pts m' b'

/-- The points of a Zipf plot: the logarithm of the rank, from 1 on, and that of the frequency. -/
def zipfPoints {F : Type} (lg : Nat → F) (freq : List Nat) : List (F × F) := (freq.zipIdx 1).map (fun p => (lg p.2, lg p.1))

end Verif.LeastSquares
