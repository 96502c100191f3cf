import Verif.Spec.Textbook
/-!
# Specification for C110: comparing two caches of different sizes on the same calls
-/

namespace Verif.Spec
open Verif

/-- The calls: requests for objects that fit into a cache of `cs` bytes, each object with one size; lookups without promotion; removals; evictions. -/
def FitsSmaller (cs md : Nat) (sz : ObjId → Nat) : Op → Prop
  | .get r => r.size = sz r.id ∧ r.size + md ≤ cs ∧ r.size + md < u32
  | .find _ upd => upd = false
  | .remove _ => True
  | .evict _ => True
  | .insert _ => False

/-- Every call that succeeds (a request that hits) on the left succeeds on the right. -/
def AsGood (out out' : List Bool) : Prop := List.Forall₂ (fun x y => x = true → y = true) out out'

/-- With these requests the cache of the first, smaller size hits more often than the cache of the second size. -/
def HitsMore {σ} (A : Algo σ) (init : Nat → σ) (rs : List Req) (cs cs' : Nat) : Prop :=
  cs < cs' ∧ ∃ out s out' s', A.gets (init cs) rs = .ok (out, s) ∧ A.gets (init cs') rs = .ok (out', s') ∧ out'.count true < out.count true

end Verif.Spec
