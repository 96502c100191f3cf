import Verif.Spec.Cache
/-!
# What a client knows about an object from its own calls

A history is the list of calls with their answers.
-/

namespace Verif.Spec
open Verif

/-- The request that a call presents to the cache for an object: a `get`, a lookup with update that finds the object, an `insert` that was
carried out.  An `insert` the client skipped (answer `false`), lookups without update, `remove` and `evict` present none. -/
def presents : Op → Bool → Option Req
  | .get r, _ => some r
  | .find r true, true => some r
  | .insert r, true => some r
  | _, _ => none

/-- the latest request presented for `id` -/
def latest (h : List (Op × Bool)) (id : ObjId) : Option Req :=
  (h.filterMap (fun e => presents e.1 e.2)).reverse.find? (fun r => r.id == id)

/-- the number of `get`s in a history -/
def gets (h : List (Op × Bool)) : Nat := h.countP (fun e => match e.1 with | .get _ => true | _ => false)

/-- one more call: count it if it is a `get`; if it presents a request for `id`, remember that request and the count -/
def latestStep (id : ObjId) (acc : Nat × Option (Nat × Req)) (e : Op × Bool) : Nat × Option (Nat × Req) :=
  let n := match e.1 with | .get _ => acc.1 + 1 | _ => acc.1
  (n, match presents e.1 e.2 with
    | some r => if r.id = id then some (n, r) else acc.2
    | none => acc.2)

/-- the latest request presented for `id`, with the number of `get`s made up to and including that call -/
def latestAt (h : List (Op × Bool)) (id : ObjId) : Option (Nat × Req) := (h.foldl (latestStep id) (0, none)).2

/-- one more call: a hit on `id` (a `get` or a lookup with update) counts; a miss of a `get`, or an `insert`, starts again at 0 -/
def hitStep (id : ObjId) (n : Nat) : Op × Bool → Nat
  | (.get r, b) => if r.id = id then (if b then n + 1 else 0) else n
  | (.find r true, b) => if r.id = id ∧ b = true then n + 1 else n
  | (.insert r, true) => if r.id = id then 0 else n
  | _ => n

/-- how often `id` was hit since it last entered the cache -/
def hitsSince (h : List (Op × Bool)) (id : ObjId) : Nat := h.foldl (hitStep id) 0

/-- `evict` on a non-empty cache removes an object whose latest request ranks highest among those of the cached objects. -/
def EvictsTop {σ : Type} (A : Algo σ) (cached : σ → Contents) (rank : Req → Int) (s0 : σ) (okOp : Op → Prop) : Prop :=
  ∀ ops out s, (∀ op ∈ ops, okOp op) → Reaches A s0 ops out s → cached s ≠ [] →
    ∀ r, ∃ v s' rv, A.evict s r = .ok s' ∧ (cached s).Perm (v :: cached s') ∧ latest (ops.zip out) v.1 = some rv ∧
      ∀ x ∈ cached s, ∃ rx, latest (ops.zip out) x.1 = some rx ∧ rank rx ≤ rank rv

end Verif.Spec
