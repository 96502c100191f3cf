import Verif.Data.PQueue
/-!
# Priority queues: what a caller sees
-/

namespace Verif.Spec
open Verif.PQueue

/-- The elements with their priorities. -/
abbrev Bag (P : Type) := List (Node × P)

inductive POp (P : Type) where
  | insert (x : Node) (p : P)
  | change (x : Node) (p : P)
  | remove (x : Node)
  | pop
  | peek

variable {P : Type} [LinearOrder P]

def Bag.without (b : Bag P) (x : Node) : Bag P := b.filter (fun e => e.1 ≠ x)

/-- `x` is an element of largest priority. -/
def Bag.IsTop (b : Bag P) (x : Node) : Prop := ∃ p, (x, p) ∈ b ∧ ∀ e ∈ b, e.2 ≤ p

/-- The caller inserts a node that is not in the queue, and changes or removes nodes that are. -/
def POp.allowed (b : Bag P) : POp P → Prop
  | .insert x _ => x ∉ b.map Prod.fst
  | .change x _ => x ∈ b.map Prod.fst
  | .remove x => x ∈ b.map Prod.fst
  | .pop => True
  | .peek => True

/-- One call: from bag `b`, answer `out`, to bag `b'`.  Ties may be broken in any way. -/
def POp.does (b : Bag P) (op : POp P) (out : Option Node) (b' : Bag P) : Prop :=
  match op with
  | .insert x p => out = none ∧ b' = (x, p) :: b
  | .change x p => out = none ∧ b' = (x, p) :: b.without x
  | .remove x => out = none ∧ b' = b.without x
  | .peek => b' = b ∧ (if b = [] then out = none else ∃ x, out = some x ∧ b.IsTop x)
  | .pop => if b = [] then out = none ∧ b' = [] else ∃ x, out = some x ∧ b.IsTop x ∧ b' = b.without x

/-- Run one call of the C queue; before `insert` the caller writes the priority into the node. -/
def POp.exec (q : Q P) : POp P → Res (Option Node × Q P)
  | .insert x p => PQueue.insert (setPri q x p) x >>= fun q => .ok (none, q)
  | .change x p => PQueue.changePriority q p x >>= fun q => .ok (none, q)
  | .remove x => PQueue.remove q x >>= fun q => .ok (none, q)
  | .pop => PQueue.pop q
  | .peek => PQueue.peek q >>= fun o => .ok (o, q)

/-- Every run of the C queue that respects `allowed`: no call faults, each call does what it should. -/
def POp.Good : List (POp P) → Q P → Bag P → Prop
  | [], q, b => q.size = b.length + 1
  | op :: ops, q, b => op.allowed b → ∃ out q' b', op.exec q = .ok (out, q') ∧ op.does b out b' ∧ POp.Good ops q' b'

end Verif.Spec
