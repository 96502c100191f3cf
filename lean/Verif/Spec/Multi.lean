import Verif.Spec.Cache
/-!
# Caches that evict several objects at a time
-/

namespace Verif.Spec
open Verif
variable {σ : Type}

/-- What remains of C06 when one eviction may drop several objects: a hit evicts nothing; a miss evicts some objects and keeps the others, and it evicts none if the requested object fits as it is. -/
def EvictIfNeeded (A : Algo σ) (cached : σ → Contents) (s0 : σ) (okOp : Op → Prop) (cacheSize md : Nat) : Prop :=
  ∀ ops out s, (∀ op ∈ ops, okOp op) → Reaches A s0 ops out s →
    ∀ r b s', okOp (.get r) → A.get s r = .ok (b, s') →
      (b = true → (cached s').Perm (cached s)) ∧
      (b = false → ∃ victims kept, (cached s).Perm (victims ++ kept) ∧
        ((cached s').Perm kept ∨ (cached s').Perm ((r.id, r.size % u32) :: kept)) ∧
        (victims ≠ [] → bytes md (cached s) + r.size + md > cacheSize))

/-- An evict call on a non-empty cache evicts at least one cached object, and adds none. -/
def EvictsSome (A : Algo σ) (cached : σ → Contents) (s0 : σ) (okOp : Op → Prop) : Prop :=
  ∀ ops out s, (∀ op ∈ ops, okOp op) → Reaches A s0 ops out s → cached s ≠ [] →
    ∀ r, ∃ vs s', A.evict s r = .ok s' ∧ vs ≠ [] ∧ (cached s).Perm (vs ++ cached s')

end Verif.Spec
