import Verif.Spec.Cache
/-!
# Names and units

Object ids are only names and bytes are only units: what a cache answers does not change when every object gets another name and all sizes are measured in another unit.
-/

namespace Verif.Spec
open Verif

variable {σ : Type}

/-- The request for the object under its new name, `k` units for each old one. -/
def renameReq (f : ObjId → ObjId) (k : Nat) (r : Req) : Req := { r with id := f r.id, size := k * r.size }

/-- The same call with new names and units. -/
def renameOp (f : ObjId → ObjId) (k : Nat) : Op → Op
  | .get r => .get (renameReq f k r)
  | .find r u => .find (renameReq f k r) u
  | .remove id => .remove (f id)
  | .evict r => .evict (renameReq f k r)
  | .insert r => .insert (renameReq f k r)

/-- The objects a call may store have sizes that fit into 32 bits in the new units, with the metadata. -/
def Measurable (k md : Nat) (op : Op) : Prop := ∀ r, insertedBy op = some r → k * (r.size + md) < u32

/-- An admission policy that does not look at the request. -/
def Blind (adm : Adm) : Prop := adm = .none ∨ ∃ answers, adm = .oracle answers

/-- A cache built by `mk` from its size, the metadata per object and an admission policy answers every history of calls the same under every renaming of the objects and every change of units. -/
def NamesAndUnits (A : Algo σ) (mk : Nat → Nat → Adm → σ) (okOp : Nat → Nat → Op → Prop) : Prop :=
  ∀ (f : ObjId → ObjId) (k : Nat), Function.Injective f → 0 < k → ∀ (cs md : Nat) (adm : Adm), Blind adm → ∀ ops, (∀ op ∈ ops, okOp cs md op ∧ Measurable k md op) →
    ∃ out s s', Reaches A (mk cs md adm) ops out s ∧ Reaches A (mk (k * cs) (k * md) adm) (ops.map (renameOp f k)) out s'

end Verif.Spec
