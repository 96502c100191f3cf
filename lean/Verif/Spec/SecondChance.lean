import Verif.Base.Types
/-!
# Second chance on a queue with hit counts

A queue is a list of (object id, hits), youngest first.  A round looks at the oldest object: one with hits goes back to the front with its count,
capped at `cap`, reduced by one; one without hits is the victim.
-/

namespace Verif.Spec
open Verif

/-- `SecondChance cap q v q'`: a round on the queue `q` takes out `v` and leaves `q'`. -/
inductive SecondChance (cap : Nat) : List (ObjId × Nat) → ObjId → List (ObjId × Nat) → Prop
  | out (l : List (ObjId × Nat)) (v : ObjId) : SecondChance cap (l ++ [(v, 0)]) v l
  | again (l : List (ObjId × Nat)) (i : ObjId) (n : Nat) (v : ObjId) (l' : List (ObjId × Nat)) (hn : 0 < n)
      (h : SecondChance cap ((i, min n cap - 1) :: l) v l') : SecondChance cap (l ++ [(i, n)]) v l'

/-- the queue with one more hit counted for `id` -/
def countHit (id : ObjId) (q : List (ObjId × Nat)) : List (ObjId × Nat) := q.map (fun e => if e.1 = id then (e.1, e.2 + 1) else e)

end Verif.Spec
