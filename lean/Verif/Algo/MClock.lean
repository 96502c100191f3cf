import Verif.Algo.Queue
/-!
# MClock, libCacheSim/cache/eviction/priv/MClock.c

A FIFO queue with several hands that point to cached objects.  A hit moves nothing.  An eviction looks at the objects under the
hands and evicts the one with the best score, which is computed from the next access times of the object and of the
ones inserted after it.
-/

namespace Verif.MClock
open Verif

/-- The parameters (MClock.c:23-34, 423-475).  `first` has an entry for each hand: the least position in a queue of
`n` objects that is at least `hand_pos * n` (the product is a double, so it is left open).  Parsing asserts that the first
`hand_pos` is 0 and the last 1.  `score` is the value `calc_candidate_score` (MClock.c:283-302) computes in doubles from `n_req` and
the next access times it has walked over; it is left open too. -/
structure Conf where
  first : List (Nat → Nat)
  consider : Nat
  score : Nat → List Int → Int

/-- The default parameters, `hand-pos=0:0.25:0.50:0.75:1.0,n-consider-obj=1` (MClock.c:36-37); the products are exact. -/
def default (score : Nat → List Int → Int) : Conf :=
  { first := [fun _ => 0, fun n => (n + 3) / 4, fun n => (n + 1) / 2, fun n => (3 * n + 3) / 4, fun n => n], consider := 1, score := score }

/-- A pointer to an object: NULL, a cached object, or one that has been freed. -/
inductive Ptr where
  | null
  | obj (id : ObjId)
  | freed
deriving DecidableEq, Repr

/-- `MClock_params_t` (MClock.c:23-34).  `last` is `none` until it is set.  `resets` is the variable `n_reset_hand` of
`MClock_evict`, one for each thread, not one for each cache (MClock.c:315). -/
structure State where
  q : QState Unit
  hands : List Ptr
  last : Option Nat
  resets : Nat
deriving DecidableEq, Repr

/-- `MClock_init` (MClock.c:73-107) in a thread in which `n_reset_hand` is `resets`.  (`eviction_params` is not cleared before `hands` and
`hand_pos` are tested against NULL in MClock.c:450-455; taken to be zero.) -/
def init (K : Conf) (cs : Nat) (adm : Adm) (resets : Nat) : State :=
  { q := QState.init cs 0 adm, hands := K.first.map (fun _ => Ptr.null), last := none, resets := resets }

def Ptr.of : Option ObjId → Ptr
  | none => .null
  | some id => .obj id

/-- Following a pointer. -/
def deref : Ptr → Res ObjId
  | .null => .error .nullDeref
  | .obj id => .ok id
  | .freed => .error .useAfterFree

/-- `obj->queue.prev` -/
def prevOf : List ObjId → ObjId → Option ObjId
  | a :: b :: l, x => if b = x then some a else prevOf (b :: l) x
  | _, _ => none

/-- `obj->queue.next` -/
def nextOf : List ObjId → ObjId → Option ObjId
  | a :: l, x => if a = x then l.head? else nextOf l x
  | [], _ => none

/-- `hand = hand->queue.prev` (MClock.c:183, 189). -/
def movePrev (q : List ObjId) (p : Ptr) : Res Ptr := deref p >>= fun id => .ok (Ptr.of (prevOf q id))

/-- MClock.c:181-190: the hands before that of the last eviction move towards the head, and so does that hand itself, unless it
is the last one, which goes to the tail. -/
def shift (q : List ObjId) : Nat → List Ptr → Res (List Ptr)
  | _, [] => .error .outOfBounds
  | 0, [_] => .ok [Ptr.of q.getLast?]
  | 0, p :: p' :: ps => movePrev q p >>= fun x => .ok (x :: p' :: ps)
  | k + 1, p :: ps => movePrev q p >>= fun x => shift q k ps >>= fun xs => .ok (x :: xs)

/-- `MClock_insert` (MClock.c:174-196). -/
def insert (s : State) (r : Req) : Res State :=
  s.q.insert () r >>= fun q' =>
  if s.hands.head? = some .null then .ok { s with q := q' }
  else match s.last with
    | none => .error .uninit
    | some k =>
      shift q'.q k s.hands >>= fun hs =>
      if hs.head? = some .null ∨ hs.head? ≠ some (Ptr.of q'.q.head?) then .error .assertFail
      else .ok { s with q := q', hands := hs }

/-- The loop of `reset_hands` (MClock.c:201-210) over the objects from position `i` on, for the hands still to be set. -/
def place (n : Nat) : Nat → List ObjId → List (Nat → Nat) → Res (List Ptr × List (Nat → Nat))
  | _, [], fs => .ok ([], fs)
  | _, _ :: _, [] => .error .outOfBounds
  | i, o :: os, f :: fs =>
    if f n ≤ i then place n (i + 1) os fs >>= fun x => .ok (Ptr.obj o :: x.1, x.2)
    else place n (i + 1) os (f :: fs)

/-- `reset_hands` (MClock.c:198-215); the last `hand_pos` is 1, see `Conf`. -/
def reset (K : Conf) (s : State) : Res State :=
  place s.q.base.nObj.toNat 0 s.q.q K.first >>= fun x =>
  match x.2 with
  | [] => .error .outOfBounds
  | [_] => .ok { s with hands := x.1 ++ [Ptr.of s.q.q.getLast?] }
  | _ => .error .assertFail

/-- The next access times that `calc_candidate_score` looks at (MClock.c:290-298): those of the object and of the ones before it in the
queue, `consider` of them. -/
def window (s : State) : Nat → Ptr → Res (List Int)
  | 0, _ => .ok []
  | _ + 1, .null => .ok []
  | n + 1, p =>
    deref p >>= fun id =>
    match s.q.base.lookup id with
    | none => .error .useAfterFree
    | some o => window s n (Ptr.of (prevOf s.q.q id)) >>= fun w => .ok (o.miscNext :: w)

/-- The choice of the hand (MClock.c:322-337): from the last to the first, each replaces the best one if its score is
higher.  Hands from `i` on; the result is the index of the best, the hand, and its score. -/
def best (K : Conf) (s : State) : Nat → List Ptr → Res (Option (Nat × Ptr × Int))
  | _, [] => .ok none
  | i, p :: ps =>
    best K s (i + 1) ps >>= fun b =>
    window s K.consider p >>= fun w =>
    match b with
    | none => .ok (some (i, p, K.score s.q.base.nReq w))
    | some c => if K.score s.q.base.nReq w > c.2.2 then .ok (some (i, p, K.score s.q.base.nReq w)) else .ok (some c)

/-- MClock.c:354-361: move the hand on, and evict the object it pointed to.  Freeing the object leaves any other pointer to
it behind. -/
def drop (s : State) (k : Nat) (p : Ptr) : Res State :=
  deref p >>= fun id =>
  qRemove s.q.q id >>= fun q' =>
  s.q.base.evictBase id >>= fun b' =>
  .ok { s with q := { base := b', q := q' }, last := some k,
               hands := (s.hands.set k (Ptr.of (nextOf s.q.q id))).map (fun p => if p = .obj id then .freed else p) }

/-- `MClock_evict` (MClock.c:312-362). -/
def evict (K : Conf) (s : State) (_ : Req) : Res State :=
  (if s.hands.head? = some .null then
     (if s.resets + 1 < 2 then reset K { s with resets := s.resets + 1 } else .error .assertFail)
   else .ok s) >>= fun s =>
  best K s 0 s.hands >>= fun b =>
  match b with
  | none => .error .outOfBounds
  | some c => drop s c.1 c.2.1

/-- `MClock_find` (MClock.c:151-156). -/
def find (s : State) (r : Req) (update : Bool) : Res (Bool × State) :=
  .ok ((s.q.findFIFO r update).1.isSome, { s with q := (s.q.findFIFO r update).2 })

/-- `MClock_remove` (MClock.c:377-392): a cached object is not removed, `assert(false)` fails. -/
def remove (s : State) (id : ObjId) : Res (Bool × State) :=
  match s.q.base.lookup id with
  | none => .ok (false, s)
  | some _ => .error .assertFail

/-- `MClock_init`: the function pointers (MClock.c:76-87). -/
def algo (K : Conf) : Algo State where
  find := find
  insert := insert
  evict := evict K
  remove := remove
  canInsert s r := ((s.q.canInsert r).1, { s with q := (s.q.canInsert r).2 })
  occ s := s.q.base.occ
  nObj s := s.q.base.nObj
  cacheSize s := s.q.base.cacheSize
  md s := s.q.base.objMd
  bump s := { s with q := s.q.bump }
  fuel s := s.q.base.tbl.length

end Verif.MClock
