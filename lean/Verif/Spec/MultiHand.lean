import Verif.Base.Types
/-!
# A queue with hands at fixed positions

The objects in the order of their insertion, newest first.  A hit moves nothing.  A miss when the cache is full evicts the object at that one of
some fixed positions which has the highest score; of equal scores the oldest object loses.
-/

namespace Verif.MultiHand
open Verif

structure Item where
  id : ObjId
  next : Int
deriving DecidableEq, Repr

structure Conf where
  /-- how many objects fit -/
  cap : Nat
  size : Nat
  /-- the positions, 0 is the newest object -/
  pos : List Nat
  consider : Nat
  score : Nat → List Int → Int

/-- The score of a position is a function of the time and of the next access times of the object there and of the ones inserted right
after it. -/
def scoreAt (K : Conf) (now : Nat) (l : List Item) (p : Nat) : Int :=
  K.score now (((l.take (p + 1)).reverse.take K.consider).map (·.next))

/-- The position with the highest score, the last one of several. -/
def pick (f : Nat → Int) : List Nat → Option Nat
  | [] => none
  | p :: ps => match pick f ps with
    | none => some p
    | some b => if f p > f b then some p else some b

/-- The request number `now`. -/
def serve (K : Conf) (now : Nat) (l : List Item) (r : Req) : Bool × List Item :=
  if r.id ∈ l.map (·.id) then (true, l.map (fun x => if x.id = r.id then { x with next := r.next } else x))
  else if r.size > K.size then (false, l)
  else if l.length < K.cap then (false, ⟨r.id, r.next⟩ :: l)
  else match pick (scoreAt K now l) K.pos with
    | none => (false, ⟨r.id, r.next⟩ :: l)
    | some p => (false, ⟨r.id, r.next⟩ :: l.eraseIdx p)

/-- The hits of a trace after `n` requests with the objects `l` cached. -/
def serveAll (K : Conf) : Nat → List Item → List Req → List Bool
  | _, _, [] => []
  | n, l, r :: rs => (serve K (n + 1) l r).1 :: serveAll K (n + 1) (serve K (n + 1) l r).2 rs

/-- The queue at the end of the trace. -/
def queueAfter (K : Conf) : Nat → List Item → List Req → List Item
  | _, l, [] => l
  | n, l, r :: rs => queueAfter K (n + 1) (serve K (n + 1) l r).2 rs

/-- The positions of the hands in a queue of `n` objects: each at the least position that is allowed for it and beyond the hand
before it, except for the last hand, which is at the tail. -/
def places (n : Nat) : Nat → List (Nat → Nat) → List Nat
  | _, [] => []
  | _, [_] => [n - 1]
  | i, f :: g :: fs => max i (f n) :: places n (max i (f n) + 1) (g :: fs)

end Verif.MultiHand
