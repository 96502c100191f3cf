import Verif.Spec.Clocked
/-!
# FIFO-Merge as a textbook discipline

The cached objects stand in a queue in the order they came.  A hand walks from the oldest towards the newest and starts over at the oldest.  When an object must go and at
most `nExam` are cached, the oldest goes.  Otherwise the next `nExam` objects under the hand are examined: they are ranked, and those ranked lowest are doomed; one goes at once, the other
doomed ones go first when room is needed again.
-/

namespace Verif.Spec.Merge
open Verif Verif.Spec

/-- What is known about a cached object: its hits, the time of the last access (32 bits) and when the trace says it is accessed next. -/
structure Seen where
  id : ObjId
  size : Nat
  hits : Nat
  last : Int
  next : Int
deriving DecidableEq, Repr

def Seen.entry (x : Seen) : ObjId × Nat := (x.id, x.size)

/-- How objects are ranked: `rank now d x`, where `d` is a random number if `draws` says that one is drawn.  `order` sorts ascending. -/
structure Ranking where
  V : Type
  draws : Bool
  rank : Nat → Nat → Seen → V
  order : List (V × ObjId) → List ObjId

structure St where
  /-- newest first -/
  queue : List Seen
  /-- the object under the hand; `none` is the oldest -/
  hand : Option ObjId
  doomed : List ObjId
  draws : List Nat
deriving DecidableEq, Repr

variable (K : Ranking) (nExam nKeep : Nat)

/-- The ranks of some objects, and the random numbers left. -/
def ranks (now : Nat) : List Seen → List Nat → List (K.V × ObjId) × List Nat
  | [], d => ([], d)
  | x :: xs, d =>
    ((K.rank now (d.headD 0) x, x.id) :: (ranks now xs (if K.draws then d.tail else d)).1, (ranks now xs (if K.draws then d.tail else d)).2)

/-- The objects from the hand to the newest. -/
def ahead (t : St) : List Seen :=
  match t.hand with
  | none => t.queue.reverse
  | some h => t.queue.reverse.dropWhile (fun x => x.id ≠ h)

/-- The objects examined next. -/
def window (t : St) : List Seen := (ahead t ++ t.queue.reverse).take nExam

/-- Where the hand stops. -/
def handAfter (t : St) : Option ObjId :=
  if (ahead t).length = nExam then none else ((ahead t ++ t.queue.reverse)[nExam]?).map (·.id)

/-- Those of the window that go: one less than are not to be kept, but at least one. -/
def victims (now : Nat) (t : St) : List ObjId := (K.order (ranks K now (window nExam t) t.draws).1).take (max 1 (nExam - nKeep - 1))

def drop (l : List Seen) (id : ObjId) : List Seen := l.filter (fun x => x.id ≠ id)

def evict (now : Nat) (t : St) : St :=
  match t.doomed with
  | v :: vs => { t with queue := drop t.queue v, doomed := vs }
  | [] =>
    if t.queue.length ≤ nExam then { t with queue := t.queue.dropLast, hand := none }
    else
      match victims K nExam nKeep now t with
      | v :: vs =>
        { queue := drop t.queue v, hand := handAfter nExam t, doomed := vs, draws := (ranks K now (window nExam t) t.draws).2 }
      | [] => t

/-- Times are kept in 32 bits, two's complement. -/
def clock32 (n : Nat) : Int := Int.bmod n (2 ^ 32)

/-- FIFO-Merge at time `now`. -/
def merge (now : Nat) : Discipline St where
  contents := fun t => t.queue.map Seen.entry
  onHit := fun t r => { t with queue := t.queue.map (fun x => if x.id = r.id then { x with hits := x.hits + 1, last := clock32 now, next := r.next } else x) }
  evict := evict K nExam nKeep now
  insert := fun t r => { t with queue := ⟨r.id, r.size % u32, 0, clock32 now, r.next⟩ :: t.queue }
  remove := fun t id => { t with queue := drop t.queue id }

end Verif.Spec.Merge
