import Verif.Tools.OracleGen
import Verif.Spec.NextAccess
/-!
# What the generator of oracle traces should write
-/

namespace Verif.Spec.Oracle
open Verif Verif.Spec Verif.OracleGen

/-- A request that asks for nothing: a get without a value in the Twitter traces, an object without bytes in the others. -/
def AsksNothing (f : Format) (r : Rq) : Prop := if f.twr then r.val = 0 ∧ (r.op = 1 ∨ r.op = 2) else r.size = 0

instance (f : Format) (r : Rq) : Decidable (AsksNothing f r) := by unfold AsksNothing; infer_instance

/-- the requests that are not empty -/
def nonEmpty (f : Format) (rs : List Rq) : List Rq := rs.filter fun r => ¬ AsksNothing f r

/-- The size can be stored in the record, and, for a record with a 64-bit size, in the `int` through which it passes. -/
def Storable (f : Format) (r : Rq) : Prop := match f.field with
  | .keyVal => True
  | .u64 => r.size < 2147483648
  | _ => r.size < 4294967296

instance (f : Format) (r : Rq) : Decidable (Storable f r) := by unfold Storable; split <;> infer_instance

/-- set, cas, replace, append, prepend, delete -/
def Overwrites (r : Rq) : Prop := r.op ∈ [3, 5, 6, 7, 8, 9]

/-- the operations with which a cache is filled: set, add, cas, replace -/
def Stores (r : Rq) : Prop := r.op ∈ [3, 4, 5, 6]

/-- `v` is the position, in the output, of the next request for the object requested at position `i`; -1 if there is none,
or, in the Twitter traces, if that request replaces or deletes the object, so that the cached one is of no use any more -/
def NextPosition (f : Format) (ks : List Rq) (i : Nat) (v : Int) : Prop :=
  (∃ j q, NextAt (ks.map Rq.id) i j ∧ ks[j]? = some q ∧ ¬ (f.twr = true ∧ Overwrites q) ∧ v = j) ∨
  (v = -1 ∧ ∀ j q, NextAt (ks.map Rq.id) i j → ks[j]? = some q → f.twr = true ∧ Overwrites q)

/-- the first time to live that is known for the object from position `i` on, 0 if none is -/
def knownTtl (ks : List Rq) (i : Nat) (id : ObjId) : Int := ((((ks.drop i).filter fun q => q.id = id).map Rq.ttl).find? (· ≠ 0)).getD 0

/-- the size the object had when it was first requested -/
def FirstSize (ks : List Rq) (id : ObjId) (z : Nat) : Prop := (ks.find? fun q => q.id = id).map Rq.size = some z

/-- `out` are the requests `ks`, in the same order, with the position of the next request; with the time to live filled in if `backfill`; each object with its first size if `oneSize` -/
def Written (f : Format) (backfill oneSize : Bool) (ks : List Rq) (out : List Ent) : Prop :=
  out.length = ks.length ∧ ∀ (i : Nat) (r : Rq) (e : Ent), ks[i]? = some r → out[i]? = some e →
    e.time = r.time ∧ e.id = r.id ∧ e.op = r.op ∧ NextPosition f ks i e.next ∧
    (f.hasTtl = true → e.ttl = if backfill then knownTtl ks i r.id else r.ttl) ∧
    (if oneSize then FirstSize ks r.id e.size else e.size = r.size)

end Verif.Spec.Oracle
