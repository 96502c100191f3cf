/-!
# The next request for the same object
-/

namespace Verif.Spec

/-- The request at position `i` (counted from 0) of `ids` is followed by the next request for the same object at position `j`. -/
def NextAt {α : Type} (ids : List α) (i j : Nat) : Prop :=
  i < j ∧ j < ids.length ∧ ids[j]? = ids[i]? ∧ ∀ m, i < m → m < j → ids[m]? ≠ ids[i]?

/-- `v` is the number of the next request for the object requested at position `i`, the first request being number 1, or -1 if there is none. -/
def NextNumber {α : Type} (ids : List α) (i : Nat) (v : Int) : Prop :=
  (∃ j, NextAt ids i j ∧ v = j + 1) ∨ (v = -1 ∧ ∀ j, ¬ NextAt ids i j)

end Verif.Spec
