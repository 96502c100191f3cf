import Verif.Spec.Cache
/-!
# Requests that agree on the size of each object
-/

namespace Verif.Spec
open Verif

/-- The requests considered: every object has one size, `sz`, and no object is empty if the client calls `evict`. -/
def OneSize (sz : ObjId → Nat) (p : Perms) (r : Req) : Prop := r.size = sz r.id ∧ (p.ev = true → 0 < r.size % u32)

end Verif.Spec
