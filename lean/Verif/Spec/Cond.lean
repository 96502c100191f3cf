import Verif.Spec.Cache
/-!
# Statements about calls that return

For algorithms some of whose calls can crash or fail to end: what a call does if it returns.  (`Capacity`, `Accounting`, `NoPhantom`,
`AddsOnlyRequested` and `EvictOnDemand` of `Verif/Spec/Cache.lean` have this form already, since they are about reached states.)
-/

namespace Verif.Spec
open Verif
variable {σ : Type}

/-- C03 for calls that return: get and find hit exactly on cached objects; find without update changes nothing at all. -/
def HitIffCachedIf (A : Algo σ) (cached : σ → Contents) (s0 : σ) (okOp : Op → Prop) : Prop :=
  ∀ ops out s, (∀ op ∈ ops, okOp op) → Reaches A s0 ops out s →
    (∀ r b s', okOp (.find r false) → A.find s r false = .ok (b, s') → b = decide (r.id ∈ (cached s).ids) ∧ s' = s) ∧
    (∀ r b s', okOp (.find r true) → A.find s r true = .ok (b, s') → b = decide (r.id ∈ (cached s).ids)) ∧
    (∀ r b s', okOp (.get r) → A.get s r = .ok (b, s') → b = decide (r.id ∈ (cached s).ids))

/-- C05 for calls that return: a miss the cache can admit is cached afterwards, with the request's size. -/
def AdmittedMissCachedIf (A : Algo σ) (cached : σ → Contents) (admits : σ → Req → Bool) (s0 : σ) (okOp : Op → Prop) : Prop :=
  ∀ ops out s, (∀ op ∈ ops, okOp op) → Reaches A s0 ops out s →
    ∀ r b s', okOp (.get r) → r.id ∉ (cached s).ids → admits s r = true → A.get s r = .ok (b, s') →
      b = false ∧ (r.id, r.size % u32) ∈ cached s'

/-- C07 for calls that return: remove reports whether the object was cached, and removes exactly it. -/
def RemoveExactIf (A : Algo σ) (cached : σ → Contents) (s0 : σ) (okOp : Op → Prop) : Prop :=
  ∀ ops out s, (∀ op ∈ ops, okOp op) → Reaches A s0 ops out s →
    ∀ id b s', okOp (.remove id) → A.remove s id = .ok (b, s') →
      b = decide (id ∈ (cached s).ids) ∧ (cached s').Perm ((cached s).filter (fun x => x.1 ≠ id))

/-- C08 for calls that return: a request that is not admitted leaves `core` unchanged. -/
def RejectQuietIf {κ : Type} (A : Algo σ) (cached : σ → Contents) (admits : σ → Req → Bool) (core : σ → κ)
    (s0 : σ) (okOp : Op → Prop) : Prop :=
  ∀ ops out s, (∀ op ∈ ops, okOp op) → Reaches A s0 ops out s →
    ∀ r b s', okOp (.get r) → r.id ∉ (cached s).ids → admits s r = false → A.get s r = .ok (b, s') → b = false ∧ core s' = core s

end Verif.Spec
