import Verif.Algo.Sieve
/-!
# libCacheSim/cache/eviction/priv/QDLPv0.c

A FIFO queue in front of a queue with a hand, and the ids of objects evicted from the FIFO queue as ghosts, all in one hash table.  `lazy_promotion` is
always true (line 124; no parameter changes it), so the branch at lines 221-236 is dead and not modelled.  `DEBUG_ASSERT`s are compiled out.  The counters
`n_fifo_obj` and `n_fifo_ghost_obj` are never read and left out.  The 32-bit counter `freq` is a natural number here.
-/

namespace Verif.QDLPv0
open Verif

/-- `cache_id` (include/libCacheSim/cacheObj.h:116): 1, 2, 3 -/
inductive Place where
  | fifo
  | clock
  | ghost
deriving DecidableEq, Repr

/-- `QDLP_obj_metadata_t`, cacheObj.h:114-118; `visited` is never read. -/
structure Meta where
  place : Place
  freq : Nat
deriving DecidableEq, Repr

/-- `clock_pointer`: NULL, an object of the queue, or the memory of an object that was removed. -/
inductive Hand where
  | null
  | at (id : ObjId)
  | dangling
deriving DecidableEq, Repr

/-- `QDLPv0_params_t`, QDLPv0.c:44-68, next to the `cache_t` part; queues head first. -/
structure State where
  base : Base Meta
  fifo : List ObjId
  clock : List ObjId
  ghost : List ObjId
  nFifoByte : Int
  nClockObj : Int
  nClockByte : Int
  nGhostByte : Int
  fifoSize : Int
  clockSize : Int
  ghostSize : Int
  hand : Hand
  /-- `vtime_last_check_is_ghost` -/
  vtime : Int
deriving DecidableEq, Repr

/-- `QDLPv0_init`, QDLPv0.c:101-159.  `fifoSize` is `(int64_t)(cache_size * fifo_ratio)`, computed in floating point from a parameter. -/
def init (cacheSize md : Nat) (fifoSize : Int) (adm : Adm) : State :=
  { base := Base.init cacheSize md adm, fifo := [], clock := [], ghost := [], nFifoByte := 0, nClockObj := 0, nClockByte := 0, nGhostByte := 0,
    fifoSize := fifoSize, clockSize := cacheSize - fifoSize, ghostSize := cacheSize - fifoSize, hand := .null, vtime := -1 }

/-- `obj->obj_size + cache->obj_md_size`: 32-bit unsigned arithmetic. -/
def osz (s : State) (o : Obj Meta) : Int := ((o.size + s.base.objMd) % u32 : Nat)

/-- `QDLPv0_remove_obj`, QDLPv0.c:411-439.  The pointer of the clock queue is not looked at: it dangles when it points to the object. -/
def removeObj (s : State) (o : Obj Meta) : Res State :=
  match o.mt.place with
  | .fifo =>
    qRemove s.fifo o.id >>= fun q =>
    s.base.removeObjBase o.id >>= fun b => .ok { s with fifo := q, nFifoByte := s.nFifoByte - osz s o, base := b }
  | .clock =>
    qRemove s.clock o.id >>= fun q =>
    s.base.removeObjBase o.id >>= fun b =>
    .ok { s with clock := q, nClockObj := s.nClockObj - 1, nClockByte := s.nClockByte - osz s o, base := b,
                 hand := if s.hand = .at o.id then .dangling else s.hand }
  | .ghost =>
    qRemove s.ghost o.id >>= fun q => .ok { s with ghost := q, nGhostByte := s.nGhostByte - osz s o, base := s.base.del o.id }

/-- `QDLPv0_find`, QDLPv0.c:208-260. -/
def find (s : State) (r : Req) (update : Bool) : Res (Bool × State) :=
  match s.base.findBase r update with
  | (none, b) => .ok (false, { s with base := b })
  | (some o, b) =>
    if update = false then .ok (decide (o.mt.place ≠ .ghost), { s with base := b })
    else
      match o.mt.place with
      | .fifo => .ok (true, { s with base := b.modify r.id (fun o => { o with mt := ⟨o.mt.place, o.mt.freq + 1⟩ }) })
      | .clock => .ok (true, { s with base := b.modify r.id (fun o => { o with mt := ⟨o.mt.place, if o.mt.freq < 1 then o.mt.freq + 1 else o.mt.freq⟩ }) })
      | .ghost => removeObj { s with base := b, vtime := s.base.nReq } o >>= fun s' => .ok (false, s')

/-- `QDLPv0_insert`, QDLPv0.c:272-298. -/
def insert (s : State) (r : Req) : Res State :=
  if (s.base.nReq : Int) = s.vtime then
    qPrepend s.clock r.id >>= fun q =>
    .ok { s with base := s.base.insertBase ⟨.clock, 0⟩ r, clock := q, nClockObj := s.nClockObj + 1, nClockByte := s.nClockByte + osz s (Obj.ofReq ⟨.clock, 0⟩ r) }
  else
    qPrepend s.fifo r.id >>= fun q =>
    .ok { s with base := s.base.insertBase ⟨.fifo, 0⟩ r, fifo := q, nFifoByte := s.nFifoByte + osz s (Obj.ofReq ⟨.fifo, 0⟩ r) }

/-- `QDLPv0_to_evict`, QDLPv0.c:310-319. -/
def toEvict (s : State) : Res ObjId :=
  match s.fifo.getLast? with
  | some id => .ok id
  | none => .error .assertFail

/-- The loop of `QDLPv0_clock_evict`, QDLPv0.c:340-349; `k` is `n_loop`, `n` bounds the number of iterations. -/
def scan : Nat → Base Meta → List ObjId → Nat → ObjId → Res (ObjId × Base Meta)
  | 0, _, _, _, _ => .error .diverge
  | n + 1, b, q, k, id =>
    match b.lookup id with
    | none => .error .useAfterFree
    | some o =>
      if o.mt.freq > 0 then
        match Sieve.prevOf q id with
        | some p => scan n (b.modify id (fun o => { o with mt := ⟨o.mt.place, o.mt.freq - 1⟩ })) q k p
        | none =>
          qTail q >>= fun t =>
          if k + 1 < 1000 then scan n (b.modify id (fun o => { o with mt := ⟨o.mt.place, o.mt.freq - 1⟩ })) q (k + 1) t else .error .assertFail
      else .ok (id, b)

/-- Bound on the number of steps: every step but the last decrements a counter. -/
def scanFuel (s : State) : Nat := (s.clock.map (fun id => ((s.base.lookup id).map (fun o => o.mt.freq)).getD 0)).sum + 1

/-- Where the hand starts, QDLPv0.c:332-337. -/
def startOf (s : State) : Res ObjId :=
  match s.hand with
  | .null => qTail s.clock
  | .at id => .ok id
  | .dangling => .error .useAfterFree

def handOf : Option ObjId → Hand
  | none => .null
  | some id => .at id

/-- `QDLPv0_clock_evict`, QDLPv0.c:330-356. -/
def clockEvict (s : State) : Res State :=
  startOf s >>= fun p =>
  scan (scanFuel s) s.base s.clock 0 p >>= fun v =>
  match v.2.lookup v.1 with
  | none => .error .useAfterFree
  | some o =>
    qRemove s.clock v.1 >>= fun q =>
    v.2.evictBase v.1 >>= fun b =>
    .ok { s with base := b, clock := q, hand := handOf (Sieve.prevOf s.clock v.1), nClockObj := s.nClockObj - 1, nClockByte := s.nClockByte - osz s o }

/-- The loop of QDLPv0.c:386-389.  Each round takes an object off the queue and faults when there is none, so one round more than there are objects is
enough fuel. -/
def shrinkClock : Nat → State → Res State
  | 0, _ => .error .diverge
  | n + 1, s => if s.nClockByte > s.clockSize then clockEvict s >>= fun s' => shrinkClock n s' else .ok s

/-- The loop of QDLPv0.c:397-400; fuel as in `shrinkClock`. -/
def trimGhost : Nat → State → Res State
  | 0, _ => .error .diverge
  | n + 1, s =>
    if s.nGhostByte > s.ghostSize then
      qTail s.ghost >>= fun id =>
      match s.base.lookup id with
      | none => .error .useAfterFree
      | some o => removeObj s o >>= fun s' => trimGhost n s'
    else .ok s

/-- Lines 379-389: the object taken off the FIFO queue goes to the clock queue. -/
def promote (s : State) (o : Obj Meta) : Res State :=
  qPrepend s.clock o.id >>= fun q =>
  shrinkClock (q.length + 1)
    { s with clock := q, nClockObj := s.nClockObj + 1, nClockByte := s.nClockByte + osz s o,
             base := s.base.modify o.id (fun o => { o with mt := ⟨.clock, 0⟩ }) }

/-- Lines 391-400: the object taken off the FIFO queue is evicted and becomes a ghost. -/
def demote (s : State) (o : Obj Meta) : Res State :=
  s.base.removeObjBaseKeep o.id >>= fun b =>
  qPrepend s.ghost o.id >>= fun q =>
  trimGhost (q.length + 1)
    { s with ghost := q, nGhostByte := s.nGhostByte + osz s o, base := b.modify o.id (fun o => { o with mt := ⟨.ghost, o.mt.freq⟩ }) }

/-- `QDLPv0_evict`, QDLPv0.c:367-409. -/
def evict (s : State) : Res State :=
  if s.nFifoByte > s.fifoSize ∨ s.nClockObj = 0 then
    qTail s.fifo >>= fun id =>
    match s.base.lookup id with
    | none => .error .useAfterFree
    | some o =>
      qRemove s.fifo id >>= fun q =>
      if o.mt.freq > 0 then promote { s with fifo := q, nFifoByte := s.nFifoByte - osz s o } o
      else demote { s with fifo := q, nFifoByte := s.nFifoByte - osz s o } o
  else clockEvict s

/-- `QDLPv0_remove`, QDLPv0.c:455-463. -/
def remove (s : State) (id : ObjId) : Res (Bool × State) :=
  match s.base.lookup id with
  | none => .ok (false, s)
  | some o => removeObj s o >>= fun s' => .ok (true, s')

/-- The function table of `QDLPv0_init`, QDLPv0.c:104-111; `get` is `cache_get_base` (188-190).  An eviction moves an object from the FIFO queue to the clock
queue or takes one off a queue, so twice the number of objects is enough fuel. -/
def algo : Algo State where
  find := find
  insert := insert
  evict := fun s _ => evict s
  remove := remove
  canInsert := fun s r => ((s.base.canInsertDefault r).1, { s with base := (s.base.canInsertDefault r).2 })
  occ := fun s => s.base.occ
  nObj := fun s => s.base.nObj
  cacheSize := fun s => s.base.cacheSize
  md := fun s => s.base.objMd
  bump := fun s => { s with base := s.base.bump }
  fuel := fun s => 2 * s.base.tbl.length

end Verif.QDLPv0
