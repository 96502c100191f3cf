import Verif.Spec.Cache
import Mathlib.Order.Defs.LinearOrder
/-!
# C43: eviction by rank

Every cached object carries a priority and the time it got it.  The victim is an object of lowest priority; among
these the one whose priority was set first.
-/

namespace Verif.Spec.Ranked
open Verif Spec
variable {P : Type} [LinearOrder P]

/-- A cached object with its access count, priority and the request number at which the priority was set. -/
structure Entry (P : Type) where
  id : ObjId
  size : Nat
  freq : Nat
  pri : P
  stamp : Nat

/-- `v` is the entry to evict: lowest priority, then oldest stamp. -/
def First (v : Entry P) (l : List (Entry P)) : Prop :=
  v ∈ l ∧ ∀ y ∈ l, v.pri < y.pri ∨ (v.pri = y.pri ∧ v.stamp ≤ y.stamp)

/-- Evicting `vs`, in that order, leaves `rest`. -/
def Evicts : List (Entry P) → List (Entry P) → List (Entry P) → Prop
  | l, [], rest => l.Perm rest
  | l, v :: vs, rest => First v l ∧ ∃ l1, l.Perm (v :: l1) ∧ Evicts l1 vs rest

/-- The inflation value after evicting `vs`: the priority of the last victim. -/
def inflation (old : P) (vs : List (Entry P)) : P := ((vs.map Entry.pri).getLast?).getD old

end Verif.Spec.Ranked
