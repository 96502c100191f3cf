import Verif.Base.Types
/-!
# What a scan is

A trace is given by the times at which its requests' objects are requested next (-1 or the largest number: never).
-/

namespace Verif.Spec
open Verif

/-- The object is requested again. -/
def Recurs (x : Int) : Prop := x ≠ -1 ∧ x ≠ 9223372036854775807

/-- The requests at the times `g` are a scan with tolerance `D`: they recur, they are close to the first of them, and so are their next requests; close is not farther
than the tolerance and the length of the scan. -/
structure IsScan (R : List Int) (D : Int) (g : List Nat) : Prop where
  sorted : g.Pairwise (· < ·)
  close : ∃ t₀ x₀, t₀ ∈ g ∧ R[t₀]? = some x₀ ∧ ∀ t ∈ g, ∃ x, R[t]? = some x ∧ Recurs x ∧
    t₀ ≤ t ∧ (t : Int) ≤ t₀ + D + g.length ∧ x ≤ x₀ + D + g.length ∧ x₀ ≤ x + D + g.length

end Verif.Spec
