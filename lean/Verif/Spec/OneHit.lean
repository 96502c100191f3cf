import Mathlib.Data.Finset.Card
import Mathlib.Data.List.Count
import Mathlib.Data.Finset.Dedup
/-!
# One-hit wonders
-/

namespace Verif.Spec

/-- The number of different objects in a trace. -/
def distinct (trace : List Nat) : Nat := trace.toFinset.card

/-- The number of objects that are requested exactly once in a trace. -/
def once (trace : List Nat) : Nat := (trace.toFinset.filter fun x => trace.count x = 1).card

end Verif.Spec
