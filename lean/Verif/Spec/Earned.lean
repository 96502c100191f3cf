import Verif.Spec.Cache
/-!
# Hits

What can be said about hits from the outside, without looking into the cache.
-/

namespace Verif.Spec
open Verif

variable {σ : Type}

/-- A `get` only hits an object that an earlier call asked for and that has not been removed since. -/
def HitsAreEarned (A : Algo σ) (s0 : σ) (okOp : Op → Prop) : Prop :=
  ∀ ops out s, (∀ op ∈ ops, okOp op) → Reaches A s0 ops out s → ∀ r s', okOp (.get r) → A.get s r = .ok (true, s') →
    ∃ pre op post q, ops = pre ++ op :: post ∧ insertedBy op = some q ∧ q.id = r.id ∧ Op.remove r.id ∉ post

/-- In a trace the first request for each object is a miss. -/
def FirstMisses (A : Algo σ) (s0 : σ) (ok : Req → Prop) : Prop :=
  ∀ trace hits s, (∀ r ∈ trace, ok r) → A.gets s0 trace = .ok (hits, s) → ∀ pre r post, trace = pre ++ r :: post → r.id ∉ pre.map Req.id → hits[pre.length]? = some false

end Verif.Spec
