import Verif.Base.CacheBase
import Mathlib.Data.List.Perm.Subperm
/-!
# Specification vocabulary for the cache API

Nothing here mentions an eviction algorithm.  A cache is observed through its API (`Algo`) and through
`cached`, the list of (object id, stored size) pairs it holds.  `cached` is pinned to the API by
`Spec.HitIffCached`: `find` without update answers exactly membership in it.
-/

namespace Verif.Spec
open Verif

/-- What the cache holds: ids with stored sizes. -/
abbrev Contents := List (ObjId × Nat)

abbrev Contents.ids (c : Contents) : List ObjId := c.map Prod.fst

/-- Bytes charged for the contents: object size plus metadata size, summed. -/
def bytes (md : Nat) (c : Contents) : Nat := (c.map (fun x => x.2 + md)).sum

/-- Which client calls a statement ranges over, besides get (`upd`: find with update, `peek`: find without update). -/
structure Perms where
  upd : Bool := true
  peek : Bool := true
  rem : Bool := true
  ev : Bool := true
  ins : Bool := true

/-- The client calls covered: every get, and (when permitted) find with and without update, remove, evict and insert, where the requests that can insert satisfy `ok`. -/
def Calls (p : Perms) (ok : Req → Prop) : Op → Prop
  | .get r => ok r
  | .find _ u => if u then p.upd = true else p.peek = true
  | .remove _ => p.rem = true
  | .evict _ => p.ev = true
  | .insert r => p.ins = true ∧ ok r

/-- The only restriction on request sizes: the stored size plus the metadata size fits in 32 bits.
With `md = 0` every request satisfies it. -/
def SizeOk (md : Nat) (r : Req) : Prop := r.size % u32 + md < u32

/-- Requests of which any two fit into the cache together; objects larger than the whole cache are allowed too. -/
def AnyTwoFit (cs md : Nat) (r : Req) : Prop := SizeOk md r ∧ (2 * (r.size + md) ≤ cs ∨ cs < r.size + md)

/-- Admission: the policy says yes and the object fits into the whole cache. -/
def admitsBase {μ : Type} (b : Base μ) (r : Req) : Bool :=
  (b.adm.admit r).1 && decide (r.size + b.objMd ≤ b.cacheSize)

variable {σ : Type}

/-- `s` is a state reached from `s0` by the client calls `ops`, which returned `out`. -/
def Reaches (A : Algo σ) (s0 : σ) (ops : List Op) (out : List Bool) (s : σ) : Prop :=
  A.run s0 ops = .ok (out, s)

/-- C09: no permitted sequence of calls faults or loops forever. -/
def Safe (A : Algo σ) (s0 : σ) (okOp : Op → Prop) : Prop :=
  ∀ ops : List Op, (∀ op ∈ ops, okOp op) → ∃ out s, Reaches A s0 ops out s

/-- C01: occupied bytes never exceed the configured size. -/
def Capacity (A : Algo σ) (s0 : σ) (okOp : Op → Prop) (cacheSize : Nat) : Prop :=
  ∀ ops out s, (∀ op ∈ ops, okOp op) → Reaches A s0 ops out s → A.occ s ≤ (cacheSize : Int)

/-- C02: the reported counters are the true ones. -/
def Accounting (A : Algo σ) (cached : σ → Contents) (s0 : σ) (okOp : Op → Prop) (md : Nat) : Prop :=
  ∀ ops out s, (∀ op ∈ ops, okOp op) → Reaches A s0 ops out s →
    A.occ s = (bytes md (cached s) : Nat) ∧ A.nObj s = ((cached s).length : Nat)

/-- C03: get and find hit exactly on cached objects; find without update changes nothing at all. -/
def HitIffCached (A : Algo σ) (cached : σ → Contents) (s0 : σ) (okOp : Op → Prop) : Prop :=
  ∀ ops out s, (∀ op ∈ ops, okOp op) → Reaches A s0 ops out s →
    (∀ r, okOp (.find r false) → A.find s r false = .ok (decide (r.id ∈ (cached s).ids), s)) ∧
    (∀ r, okOp (.find r true) → ∃ s', A.find s r true = .ok (decide (r.id ∈ (cached s).ids), s')) ∧
    (∀ r, okOp (.get r) → ∃ s', A.get s r = .ok (decide (r.id ∈ (cached s).ids), s'))

/-- The request an operation can insert. -/
def insertedBy : Op → Option Req
  | .get r => some r
  | .insert r => some r
  | _ => none

/-- C04: no id is cached twice, and every cached object stems from an earlier request with that id and size
that was not followed by a removal of that id. -/
def NoPhantom (A : Algo σ) (cached : σ → Contents) (s0 : σ) (okOp : Op → Prop) : Prop :=
  ∀ ops out s, (∀ op ∈ ops, okOp op) → Reaches A s0 ops out s →
    (cached s).ids.Nodup ∧
    ∀ x ∈ cached s, ∃ pre op post r, ops = pre ++ op :: post ∧ insertedBy op = some r ∧
      r.id = x.1 ∧ r.size % u32 = x.2 ∧ Op.remove x.1 ∉ post

/-- C04, second half: one call adds at most the requested object. -/
def AddsOnlyRequested (A : Algo σ) (cached : σ → Contents) (s0 : σ) (okOp : Op → Prop) : Prop :=
  ∀ ops out s, (∀ op ∈ ops, okOp op) → Reaches A s0 ops out s →
    ∀ op b s', okOp op → A.step s op = .ok (b, s') →
      ∀ x ∈ cached s', x ∈ cached s ∨ ∃ r, insertedBy op = some r ∧ x = (r.id, r.size % u32)

/-- C05: a miss the cache can admit is cached afterwards, with the request's size. -/
def AdmittedMissCached (A : Algo σ) (cached : σ → Contents) (admits : σ → Req → Bool) (s0 : σ)
    (okOp : Op → Prop) : Prop :=
  ∀ ops out s, (∀ op ∈ ops, okOp op) → Reaches A s0 ops out s →
    ∀ r, okOp (.get r) → r.id ∉ (cached s).ids → admits s r = true →
      ∃ s', A.get s r = .ok (false, s') ∧ (r.id, r.size % u32) ∈ cached s'

/-- C06: a hit evicts nothing; a miss evicts a list of victims, keeps everything else, and with one victim
fewer (the last one put back) the new object would not have fitted. -/
def EvictOnDemand (A : Algo σ) (cached : σ → Contents) (s0 : σ) (okOp : Op → Prop)
    (cacheSize md : Nat) : Prop :=
  ∀ ops out s, (∀ op ∈ ops, okOp op) → Reaches A s0 ops out s →
    ∀ r b s', okOp (.get r) → A.get s r = .ok (b, s') →
      (b = true → (cached s').Perm (cached s)) ∧
      (b = false → ∃ victims kept, (cached s).Perm (victims ++ kept) ∧
        ((cached s').Perm kept ∨ (cached s').Perm ((r.id, r.size % u32) :: kept)) ∧
        ∀ vs v, victims = vs ++ [v] → bytes md (v :: kept) + r.size + md > cacheSize)

/-- C07: remove reports whether the object was cached, and removes exactly it. -/
def RemoveExact (A : Algo σ) (cached : σ → Contents) (s0 : σ) (okOp : Op → Prop) : Prop :=
  ∀ ops out s, (∀ op ∈ ops, okOp op) → Reaches A s0 ops out s →
    ∀ id, ∃ s', A.remove s id = .ok (decide (id ∈ (cached s).ids), s') ∧
      (cached s').Perm ((cached s).filter (fun x => x.1 ≠ id))

/-- C08: a request that is not admitted leaves `core` unchanged; `core` is everything in the state except the
request counter and the admission policy's own state. -/
def RejectQuiet {κ : Type} (A : Algo σ) (cached : σ → Contents) (admits : σ → Req → Bool) (core : σ → κ)
    (s0 : σ) (okOp : Op → Prop) : Prop :=
  ∀ ops out s, (∀ op ∈ ops, okOp op) → Reaches A s0 ops out s →
    ∀ r, okOp (.get r) → r.id ∉ (cached s).ids → admits s r = false →
      ∃ s', A.get s r = .ok (false, s') ∧ core s' = core s

/-- An evict call on a non-empty cache evicts exactly one cached object. -/
def EvictsOne (A : Algo σ) (cached : σ → Contents) (s0 : σ) (okOp : Op → Prop) : Prop :=
  ∀ ops out s, (∀ op ∈ ops, okOp op) → Reaches A s0 ops out s → cached s ≠ [] →
    ∀ r, ∃ v s', A.evict s r = .ok s' ∧ (cached s).Perm (v :: cached s')

/-- C10: on a non-empty cache `to_evict` names the object the next `evict` removes.  (`toEvict` is a function of
the state: the call itself changes nothing that any other call reads.) -/
def ToEvictPredicts (A : Algo σ) (cached : σ → Contents) (toEvict : σ → Option ObjId) (s0 : σ)
    (okOp : Op → Prop) : Prop :=
  ∀ ops out s, (∀ op ∈ ops, okOp op) → Reaches A s0 ops out s → cached s ≠ [] →
    ∀ r, ∃ id n s', toEvict s = some id ∧ A.evict s r = .ok s' ∧ (cached s).Perm ((id, n) :: cached s')

end Verif.Spec
