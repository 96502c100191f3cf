import Verif.Data.HashTableV1
import Verif.Spec.Cache
/-!
# A set of objects and pointers into it, and the client of the first hash table
-/

namespace Verif.Spec.BakedTable
open Verif Verif.HashTableV1

/-- What the client does: store an object, look one up, delete the one found, have the table look after a pointer to the one found. -/
inductive Call where
  | insert (r : Req)
  | find (id : ObjId)
  | delete (id : ObjId)
  | watch (id : ObjId)

/-- The objects with their sizes, and for every registered pointer the object it is to point to (none if there is nothing to say: that object has been deleted, or was not there). -/
structure St where
  objs : Contents := []
  follow : List (Option ObjId) := []

def St.get (t : St) (id : ObjId) : Option (ObjId × Nat) := t.objs.find? (fun x => x.1 = id)

/-- The same id is not stored twice, and the low 32 bits of the size are not all 0. -/
def Allowed (t : St) : Call → Prop
  | .insert r => r.id ∉ t.objs.ids ∧ r.size % u32 ≠ 0
  | _ => True

def step (t : St) : Call → St
  | .insert r => { t with objs := (r.id, r.size % u32) :: t.objs }
  | .find _ => t
  | .delete id => ⟨t.objs.filter (fun x => x.1 ≠ id), t.follow.map (fun w => if w = some id then none else w)⟩
  | .watch id => { t with follow := t.follow ++ [if id ∈ t.objs.ids then some id else none] }

/-- the object the client gets to see -/
def answer (t : St) : Call → Option (ObjId × Nat)
  | .insert r => some (r.id, r.size % u32)
  | .find id => t.get id
  | .delete id => t.get id
  | .watch id => t.get id

def AllAllowed : St → List Call → Prop
  | _, [] => True
  | t, c :: cs => Allowed t c ∧ AllAllowed (step t c) cs

def answers : St → List Call → List (Option (ObjId × Nat))
  | _, [] => []
  | t, c :: cs => answer t c :: answers (step t c) cs

def after : St → List Call → St
  | t, [] => t
  | t, c :: cs => after (step t c) cs

/-- the object behind a pointer returned by the table -/
def seen (t : T) : Option Addr → Res (Option (ObjId × Nat))
  | none => .ok none
  | some a => rd t a >>= fun c => .ok (some (c.id, c.size))

/-- The calls of the C functions. -/
def exec (H : ObjId → Nat) (t : T) : Call → Res (Option (ObjId × Nat) × T)
  | .insert r => seen (insert H t r).2 (some (insert H t r).1) >>= fun o => .ok (o, (insert H t r).2)
  | .find id => seen t (find H t id) >>= fun o => .ok (o, t)
  | .delete id => seen t (find H t id) >>= fun o =>
    match find H t id with
    | none => .ok (o, t)
    | some a => delete H t a >>= fun t' => .ok (o, t')
  | .watch id => seen t (find H t id) >>= fun o => .ok (o, HashTableV1.watch t (find H t id))

def execAll (H : ObjId → Nat) : T → List Call → Res (List (Option (ObjId × Nat)) × T)
  | t, [] => .ok ([], t)
  | t, c :: cs => exec H t c >>= fun p => execAll H p.2 cs >>= fun q => .ok (p.1 :: q.1, q.2)

end Verif.Spec.BakedTable
