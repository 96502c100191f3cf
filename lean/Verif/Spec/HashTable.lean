import Verif.Data.HashTable
/-!
# A finite map from object ids to objects, and what the hash table has to do with it
-/

namespace Verif.Spec
open Verif.HashTable

/-- The map: the objects present, each with its id. -/
abbrev Map := List (ObjId × Addr)

def Map.get (m : Map) (id : ObjId) : Option Addr := (m.find? (fun e => e.1 = id)).map Prod.snd

/-- Calls of the table's functions.  `insert` comes with the address `malloc` returned. -/
inductive HOp where
  | insert (a : Addr) (id : ObjId)
  | delete (a : Addr)
  | tryDelete (a : Addr)
  | deleteId (id : ObjId)
  | find (id : ObjId)

/-- What the caller has to respect: an id is not inserted twice, `malloc` does not return an address in use (`used`: present in
the heap), only a present object is deleted by `delete`, and `tryDelete` is given a live object. -/
def HOp.allowed (m : Map) : HOp → Prop
  | .insert a id => id ∉ m.map Prod.fst ∧ a ∉ m.map Prod.snd
  | .delete a => a ∈ m.map Prod.snd
  | .tryDelete a => a ∈ m.map Prod.snd
  | .deleteId _ => True
  | .find _ => True

/-- The map afterwards. -/
def HOp.effect (m : Map) : HOp → Map
  | .insert a id => (id, a) :: m
  | .delete a => m.filter (fun e => e.2 ≠ a)
  | .tryDelete a => m.filter (fun e => e.2 ≠ a)
  | .deleteId id => m.filter (fun e => e.1 ≠ id)
  | .find _ => m

/-- What the call returns (`some`: a found object; booleans as `some 1`/`none`). -/
def HOp.answer (m : Map) : HOp → Option Addr
  | .insert a _ => some a
  | .delete _ => none
  | .tryDelete _ => some 1
  | .deleteId id => if id ∈ m.map Prod.fst then some 1 else none
  | .find id => m.get id

def HOp.allAllowed : Map → List HOp → Prop
  | _, [] => True
  | m, op :: ops => op.allowed m ∧ HOp.allAllowed (op.effect m) ops

def HOp.answers : Map → List HOp → List (Option Addr)
  | _, [] => []
  | m, op :: ops => op.answer m :: HOp.answers (op.effect m) ops

/-- Run one call of the C table. -/
def HOp.exec (H : ObjId → Nat) (t : T) : HOp → Res (Option Addr × T)
  | .insert a id => HashTable.insert H t a id >>= fun t' => .ok (some a, t')
  | .delete a => HashTable.delete H t a >>= fun t' => .ok (none, t')
  | .tryDelete a => HashTable.tryDelete H t a >>= fun p => .ok (if p.1 then some 1 else none, p.2)
  | .deleteId id => HashTable.deleteObjId H t id >>= fun p => .ok (if p.1 then some 1 else none, p.2)
  | .find id => HashTable.find H t id >>= fun p => .ok (p, t)

def HOp.execAll (H : ObjId → Nat) : T → List HOp → Res (List (Option Addr) × T)
  | t, [] => .ok ([], t)
  | t, op :: ops => op.exec H t >>= fun p => HOp.execAll H p.2 ops >>= fun q => .ok (p.1 :: q.1, q.2)

end Verif.Spec
