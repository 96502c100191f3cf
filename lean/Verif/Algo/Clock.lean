import Verif.Algo.Queue
/-!
# libCacheSim/cache/eviction/Clock.c (without `USE_BELADY`)
-/

namespace Verif.Clock
open Verif

/-- `Clock_params_t` (include/libCacheSim/evictionAlgo.h:29-38) next to the `cache_t` part.  The union member of an
object is `clock.freq`.  `max_freq = (1 << n_bit_counter) - 1` (Clock.c:319-320); the model allows any
non-negative value. -/
structure State where
  base : Base Nat
  q : List ObjId
  maxFreq : Nat
  nRew : Nat := 0
  byteRew : Nat := 0
deriving DecidableEq, Repr

/-- the `cache_t` part with the queue -/
def State.qs (s : State) : QState Nat := ⟨s.base, s.q⟩
def State.setQs (s : State) (x : QState Nat) : State := { s with base := x.base, q := x.q }

/-- `Clock_find`, Clock.c:145-159. -/
def find (s : State) (r : Req) (update : Bool) : Res (Bool × State) :=
  match s.base.findBase r update with
  | (none, b) => .ok (false, { s with base := b })
  | (some _, b) =>
    if update then
      .ok (true, { s with base := b.modify r.id (fun o => if o.mt < s.maxFreq then { o with mt := o.mt + 1 } else o) })
    else .ok (true, { s with base := b })

/-- `Clock_insert`, Clock.c:171-183: `cache_insert_base`, `prepend_obj_to_head`, `freq = 0`. -/
def insert (s : State) (r : Req) : Res State :=
  s.qs.insert 0 r >>= fun x => .ok (s.setQs x)

/-- The loop of `Clock_evict`, Clock.c:227-234: while the tail's counter is positive, decrement it, account for the
rewrite and move the object to the head.  `n` bounds the number of iterations (model artefact).
Ends with the id of the object to evict. -/
def scan : Nat → State → Res (ObjId × State)
  | 0, _ => .error .diverge
  | n + 1, s =>
    qTail s.q >>= fun id =>
    match s.base.lookup id with
    | none => .error .useAfterFree
    | some o =>
      if o.mt ≥ 1 then
        qMoveToHead s.q id >>= fun q' =>
        scan n { s with base := s.base.modify id (fun o => { o with mt := o.mt - 1 }), q := q',
                        nRew := s.nRew + 1, byteRew := s.byteRew + o.size }
      else .ok (id, s)

/-- sum of all counters -/
def totalFreq (s : State) : Nat := (s.base.tbl.map (·.mt)).sum

/-- `Clock_evict`, Clock.c:224-238. -/
def evict (s : State) : Res State :=
  scan (totalFreq s + 1) s >>= fun p =>
  qRemove p.2.q p.1 >>= fun q' =>
  p.2.base.evictBase p.1 >>= fun b' => .ok { p.2 with base := b', q := q' }

/-- One round of `Clock_to_evict`, Clock.c:203-210: walk from the tail towards the head looking for an object whose
counter minus `round` is below 1. -/
def toEvictRound (s : State) (round : Nat) : Option ObjId :=
  s.q.reverse.find? (fun id => match s.base.lookup id with
    | some o => decide (o.mt < round + 1)
    | none => false)

/-- `Clock_to_evict`, Clock.c:195-213: rounds 0, 1, 2, …; `n` bounds the number of rounds. -/
def toEvictLoop (s : State) : Nat → Nat → Option ObjId
  | 0, _ => none
  | n + 1, round =>
    match toEvictRound s round with
    | some id => some id
    | none => toEvictLoop s n (round + 1)

def toEvict (s : State) : Option ObjId := toEvictLoop s (totalFreq s + 1) 0

/-- `Clock_remove`, Clock.c:255-285. -/
def remove (s : State) (id : ObjId) : Res (Bool × State) :=
  s.qs.remove id >>= fun p => .ok (p.1, s.setQs p.2)

/-- `Clock_init`, Clock.c:54-94. -/
def algo : Algo State where
  find := find
  insert := insert
  evict := fun s _ => evict s
  remove := remove
  canInsert := fun s r => ((s.base.canInsertDefault r).1, { s with base := (s.base.canInsertDefault r).2 })
  occ := fun s => s.base.occ
  nObj := fun s => s.base.nObj
  cacheSize := fun s => s.base.cacheSize
  md := fun s => s.base.objMd
  bump := fun s => { s with base := s.base.bump }
  fuel := fun s => s.base.tbl.length

def init (cacheSize md maxFreq : Nat) (adm : Adm) : State :=
  { base := Base.init cacheSize md adm, q := [], maxFreq := maxFreq }

end Verif.Clock
