import Mathlib.Data.List.Dedup
import Verif.Spec.Cache
/-!
# Recency order and stack distance, stated on traces of object ids
-/

namespace Verif.Spec
open Verif

/-- The distinct objects of a trace, most recently accessed first (`dedup` keeps the last occurrence). -/
def mostRecent (tr : List ObjId) : List ObjId := tr.dedup.reverse

/-- The part of the trace after the last access to `x`. -/
def sinceLast (x : ObjId) (tr : List ObjId) : List ObjId := (tr.reverse.takeWhile (fun y => y ≠ x)).reverse

/-- Stack distance of a request for `x` after the trace `tr`: the number of distinct objects accessed since the last
access to `x`; `none` when `x` was never accessed. -/
def stackDistance (tr : List ObjId) (x : ObjId) : Option Nat :=
  if x ∈ tr then some (sinceLast x tr).dedup.length else none

/-- Is the distance below `k`?  (No for a first access.) -/
def within (k : Nat) : Option Nat → Bool
  | some d => decide (d < k)
  | none => false

/-- Hit or miss of each request of `tr` (after the history `pre`) by the stack-distance rule: a request hits in `k` slots
iff its stack distance is below `k`. -/
def hitsByDistance (k : Nat) : List ObjId → List ObjId → List Bool
  | _, [] => []
  | pre, x :: tr =>
    within k (stackDistance pre x) :: hitsByDistance k (pre ++ [x]) tr

end Verif.Spec
