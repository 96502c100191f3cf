import Verif.Spec.Merge
/-!
# FIFO-Reinsertion as a textbook discipline

The cached objects stand in a queue.  A hand walks from the oldest towards the newest and starts over at the oldest.  When an object must go and at most `nExam` are cached, the one under the hand
goes.  Otherwise the next `nExam` objects under the hand are ranked: the `nKeep` ranked highest go to the front of the queue, the highest first, with their hits halved; the others are evicted.
-/

namespace Verif.Spec.Reinsert
open Verif Verif.Spec
open Verif.Spec.Merge (Seen Ranking ranks drop clock32)

structure St where
  /-- newest first -/
  queue : List Seen
  /-- the object under the hand; `none` is the oldest -/
  hand : Option ObjId
  draws : List Nat
deriving DecidableEq, Repr

/-- The objects from the hand to the newest. -/
def ahead (t : St) : List Seen :=
  match t.hand with
  | none => t.queue.reverse
  | some h => t.queue.reverse.dropWhile (fun x => x.id ≠ h)

/-- The queue in the order in which the hand meets it, more than once round. -/
def road (t : St) : List Seen := ahead t ++ t.queue.reverse

/-- An object kept by a scan: half of its hits, rounded up. -/
def halve (x : Seen) : Seen := { x with hits := (x.hits + 1) / 2 }

/-- Reinsert an object at the front. -/
def toFront (q : List Seen) (id : ObjId) : List Seen := (q.filter (fun x => x.id = id)).map halve ++ drop q id

variable (K : Ranking) (nExam nKeep : Nat)

/-- The examined objects, the lowest ranked first. -/
def ranked (now : Nat) (t : St) : List ObjId := K.order (ranks K now ((road t).take nExam) t.draws).1

def evict (now : Nat) (t : St) : St :=
  if t.queue.length ≤ nExam then
    match ahead t with
    | [] => t
    | x :: l => { t with queue := drop t.queue x.id, hand := l.head?.map (·.id) }
  else
    { queue := ((ranked K nExam now t).drop (nExam - nKeep)).foldl toFront (((ranked K nExam now t).take (nExam - nKeep)).foldl drop t.queue)
      hand := (road t)[nExam]?.map (·.id)
      draws := (ranks K now ((road t).take nExam) t.draws).2 }

/-- FIFO-Reinsertion at time `now`. -/
def reinsert (now : Nat) : Discipline St where
  contents := fun t => t.queue.map Seen.entry
  onHit := fun t r => { t with queue := t.queue.map (fun x => if x.id = r.id then { x with hits := x.hits + 1, last := clock32 now, next := r.next } else x) }
  evict := evict K nExam nKeep now
  insert := fun t r => { t with queue := ⟨r.id, r.size % u32, 0, clock32 now, r.next⟩ :: t.queue }
  remove := fun t id => { t with queue := drop t.queue id }

end Verif.Spec.Reinsert
