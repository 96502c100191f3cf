import Verif.Algo.LRUv0
/-!
# LRU without eviction, for LRUv0
-/

namespace Verif.Spec.Recency
open Verif Verif.LRUv0

/-- a request puts its object at the end -/
def touch (l : List VObj) (r : Req) : List VObj := (l.filter fun o => o.id ≠ r.id) ++ [⟨r.id, r.size⟩]

/-- the requested objects with their last sizes, the least recently requested one first -/
def order (rs : List Req) : List VObj := rs.foldl touch []

/-- bytes, with `md` more for each object -/
def bytes (md : Nat) (l : List VObj) : Nat := (l.map fun o => o.size + md).sum

/-- whether each request is for an object requested before -/
def seen : List Req → List ObjId → List Bool
  | [], _ => []
  | r :: rs, before => decide (r.id ∈ before) :: seen rs (r.id :: before)

end Verif.Spec.Recency
