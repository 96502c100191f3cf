import Verif.Spec.Cache
import Mathlib.Algebra.BigOperators.Group.Finset.Basic
/-!
# Bytes written to a cache
-/

namespace Verif.Spec
open Verif

variable {σ : Type}

/-- The total size of the requests. -/
def volume (trace : List Req) : Nat := (trace.map Req.size).sum

/-- The requests that missed. -/
def missed (trace : List Req) (hits : List Bool) : List Req := ((trace.zip hits).filter fun p => p.2 = false).map Prod.fst

/-- The requests that are the first ones for their object. -/
def firstReqs (reqs : List Req) : List Req :=
  (List.range reqs.length).filterMap fun k => reqs[k]?.filter fun r => r.id ∉ (reqs.take k).map Req.id

/-- The bytes that enter the cache during a trace: each time that an object is in the cache after a request and was not there before it, it is written. -/
inductive Writes (A : Algo σ) (cached : σ → Contents) : σ → List Req → Nat → Prop
  | nil (s) : Writes A cached s [] 0
  | new (s r b s' rs n) : A.get s r = .ok (b, s') → r.id ∉ (cached s).ids → (r.id, r.size) ∈ cached s' → Writes A cached s' rs n → Writes A cached s (r :: rs) (r.size + n)
  | old (s r b s' rs n) : A.get s r = .ok (b, s') → (r.id ∈ (cached s).ids ∨ r.id ∉ (cached s').ids) → Writes A cached s' rs n → Writes A cached s (r :: rs) n

end Verif.Spec
