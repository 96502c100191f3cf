import Verif.Spec.Recency
/-!
# Reuse distances, stated on traces of object ids
-/

namespace Verif.Spec
open Verif

/-- The number of requests since the last access to `x`, this one included; `none` when there is none. -/
def accessAge (pre : List ObjId) (x : ObjId) : Option Nat := if x ∈ pre then some ((sinceLast x pre).length + 1) else none

/-- The number of requests since the first access to `x`, this one included. -/
def ageSinceFirst (pre : List ObjId) (x : ObjId) : Option Nat := if x ∈ pre then some (pre.length - pre.idxOf x) else none

/-- The array format: `-1` for "never". -/
def orMinus : Option Nat → Int
  | some d => d
  | none => -1

/-- The value of `f` at every request of `tr`, `f` being given the trace before the request and the object. -/
def atEach {α : Type} (f : List ObjId → ObjId → α) : List ObjId → List ObjId → List α
  | _, [] => []
  | pre, x :: tr => f pre x :: atEach f (pre ++ [x]) tr

/-- The position of the last access to `x` in `pre`. -/
def lastPos (pre : List ObjId) (x : ObjId) : Nat := pre.length - 1 - (sinceLast x pre).length

/-- 1 if the trace's first object is requested again, and at its first repetition has a stack distance below `k`; 0 otherwise. -/
def firstRepeatWithin (k : Nat) : List ObjId → Nat
  | [] => 0
  | x :: tr => if x ∈ tr ∧ (tr.takeWhile (· ≠ x)).dedup.length < k then 1 else 0

end Verif.Spec
