import Verif.Algo.LRU
import Verif.Algo.Clock
import Verif.Algo.ARC
/-!
# libCacheSim/cache/eviction/fifo/LP_ARC.c

Adaptive replacement with "lazy promotion": T1 and T2 are CLOCK caches, the ghost lists B1 and B2 are LRU caches.  Modelled with object metadata not considered (the
default): then all metadata sizes are 0.  `DEBUG_ASSERT`s are compiled out.  As in `Verif/Algo/ARC.lean` the arithmetic on the target `p` is left open (`ARC.Arith`).  The
initialiser ignores the parameter string (LP_ARC.c:83-123 never calls `LP_ARC_parse_params`).
-/

namespace Verif.LPARC
open Verif
open Verif.ARC (Arith)

/-- `LP_ARC_params_t`, LP_ARC.c:24-36, next to the fields of the outer `cache_t` in use: its size and request counter.  The admission policy is never asked. -/
structure State (R : Arith) where
  cacheSize : Nat
  nReq : Nat
  t1 : Clock.State
  b1 : LRU.State
  t2 : Clock.State
  b2 : LRU.State
  p : R.P
  /-- `curr_obj_in_L1_ghost` -/
  inB1 : Bool
  /-- `curr_obj_in_L2_ghost` -/
  inB2 : Bool
  /-- `vtime_last_req_in_ghost` -/
  vtime : Int

variable {R : Arith}

/-- `LP_ARC_init`, LP_ARC.c:83-123: the four caches are as large as the cache itself and have no admission policy; Clock's default is one bit per object
(Clock.c:79-80). -/
def init (cacheSize : Nat) : State R :=
  { cacheSize := cacheSize, nReq := 0, t1 := Clock.init cacheSize 0 1 .none, b1 := LRU.init cacheSize 0 .none, t2 := Clock.init cacheSize 0 1 .none,
    b2 := LRU.init cacheSize 0 .none, p := R.zero, inB1 := false, inB2 := false, vtime := -1 }

/-- A ghost is hit, LP_ARC.c:207-230: `a` says whether the object is in B1; otherwise it is in B2. -/
def ghostHit (s : State R) (r : Req) (a : Bool) : Res (State R) :=
  if a then
    LRU.algo.remove s.b1 r.id >>= fun g =>
    .ok { s with p := R.up s.p s.b2.base.occ s.b1.base.occ s.cacheSize, b1 := g.2, inB1 := true, inB2 := false, vtime := s.nReq }
  else
    LRU.algo.remove s.b2 r.id >>= fun g =>
    .ok { s with p := R.down s.p s.b1.base.occ s.b2.base.occ, b2 := g.2, inB1 := false, inB2 := true, vtime := s.nReq }

/-- A hit, LP_ARC.c:207-208 and 231-242: an object of T1 goes to T2 as if it were requested there, one of T2 stays and is marked.  The assertion that the
`find` with update returns the object found before (line 240) holds whenever that `find` finds the object. -/
def hit (s : State R) (r : Req) (inT1 : Bool) : Res (State R) :=
  if inT1 then
    Clock.algo.remove s.t1 r.id >>= fun a =>
    Clock.algo.get s.t2 r >>= fun b => .ok { s with t1 := a.2, t2 := b.2, inB1 := false, inB2 := false }
  else
    Clock.algo.find s.t2 r true >>= fun b =>
    if b.1 = false then .error .assertFail else .ok { s with t2 := b.2, inB1 := false, inB2 := false }

/-- `LP_ARC_find`, LP_ARC.c:184-245.  After a hit in T1 the returned pointer is that of the freed object; the callers only compare it with NULL. -/
def find (s : State R) (r : Req) (update : Bool) : Res (Bool × State R) :=
  Clock.algo.find s.t1 r false >>= fun a =>
  Clock.algo.find s.t2 r false >>= fun b =>
  if update = false then .ok (a.1 || b.1, { s with t1 := a.2, t2 := b.2 })
  else
    LRU.algo.find s.b1 r false >>= fun c =>
    LRU.algo.find s.b2 r false >>= fun d =>
    if (a.1 || b.1) = false ∧ (c.1 || d.1) = false then .ok (false, { s with t1 := a.2, t2 := b.2, b1 := c.2, b2 := d.2 })
    else if (c.1 || d.1) = true then
      ghostHit { s with t1 := a.2, t2 := b.2, b1 := c.2, b2 := d.2 } r c.1 >>= fun s' => .ok (a.1 || b.1, s')
    else
      hit { s with t1 := a.2, t2 := b.2, b1 := c.2, b2 := d.2 } r a.1 >>= fun s' => .ok (a.1 || b.1, s')

/-- `vtime_last_req_in_ghost == n_req && (curr_obj_in_L1_ghost || curr_obj_in_L2_ghost)`, LP_ARC.c:263-264, 293-294, 313-314. -/
def afterGhostHit (s : State R) : Bool := decide (s.vtime = s.nReq) && (s.inB1 || s.inB2)

/-- `LP_ARC_insert`, LP_ARC.c:258-278. -/
def insert (s : State R) (r : Req) : Res (State R) :=
  if afterGhostHit s then
    Clock.algo.insert s.t2 r >>= fun q => .ok { s with t2 := q, inB1 := false, inB2 := false, vtime := -1 }
  else Clock.algo.insert s.t1 r >>= fun q => .ok { s with t1 := q }

/-- The choice of `_LP_ARC_to_replace`, LP_ARC.c:368-369. -/
def overTarget (s : State R) : Bool :=
  decide (s.t1.base.occ > 0) && (R.gt s.t1.base.occ s.p || (R.eq s.t1.base.occ s.p && s.inB2))

/-- `_LP_ARC_to_replace`, LP_ARC.c:362-378. -/
def toReplace (s : State R) : Option ObjId := if overTarget s then Clock.toEvict s.t1 else Clock.toEvict s.t2

/-- The choice of `_LP_ARC_replace`, LP_ARC.c:384-392. -/
def fromT1 (s : State R) : Bool := overTarget s || decide (s.t2.base.occ = 0)

/-- The object CLOCK would evict as a request: `to_evict` and `copy_cache_obj_to_request`, LP_ARC.c:394-396, 402-404.  NULL dereference when the cache is empty
(already in `Clock_to_evict`). -/
def nextVictim (q : Clock.State) : Res Req :=
  match Clock.toEvict q with
  | none => .error .nullDeref
  | some id =>
    match q.base.lookup id with
    | none => .error .useAfterFree
    | some o => .ok o.toReq

/-- `_LP_ARC_replace`, LP_ARC.c:381-409. -/
def replace (s : State R) (r : Req) : Res (State R) :=
  if fromT1 s then
    nextVictim s.t1 >>= fun o =>
    LRU.algo.get s.b1 o >>= fun g =>
    Clock.algo.evict s.t1 r >>= fun q => .ok { s with t1 := q, b1 := g.2 }
  else
    nextVictim s.t2 >>= fun o =>
    LRU.algo.get s.b2 o >>= fun g =>
    Clock.algo.evict s.t2 r >>= fun q => .ok { s with t2 := q, b2 := g.2 }

/-- `_LP_ARC_to_evict_miss_on_all_queues`, LP_ARC.c:413-433. -/
def toEvictMiss (s : State R) (r : Req) : Option ObjId :=
  if s.t1.base.occ + s.b1.base.occ + r.size > (s.cacheSize : Int) then
    if s.b1.base.occ > 0 then toReplace s else Clock.toEvict s.t1
  else toReplace s

/-- The loop of `_LP_ARC_evict_miss_on_all_queues`, LP_ARC.c:461-466.  Each round takes one object off B2 and faults when B2 is empty, so one round more than there
are objects is enough fuel. -/
def shrinkB2 (s : State R) (r : Req) : Nat → LRU.State → Res LRU.State
  | 0, _ => .error .diverge
  | n + 1, q =>
    if s.t1.base.occ + s.b1.base.occ + s.t2.base.occ + q.base.occ ≥ (s.cacheSize : Int) * 2 then
      LRU.algo.evict q r >>= fun q' => shrinkB2 s r n q'
    else .ok q

/-- `_LP_ARC_evict_miss_on_all_queues`, LP_ARC.c:436-469. -/
def evictMiss (s : State R) (r : Req) : Res (State R) :=
  if s.t1.base.occ + s.b1.base.occ + r.size > (s.cacheSize : Int) then
    if s.b1.base.occ > 0 then
      LRU.algo.evict s.b1 r >>= fun g => replace { s with b1 := g } r
    else Clock.algo.evict s.t1 r >>= fun q => .ok { s with t1 := q }
  else shrinkB2 s r (s.b2.base.tbl.length + 1) s.b2 >>= fun g => replace { s with b2 := g } r

/-- `LP_ARC_to_evict`, LP_ARC.c:290-300. -/
def toEvict (s : State R) (r : Req) : Option ObjId := if afterGhostHit s then toReplace s else toEvictMiss s r

/-- `LP_ARC_evict`, LP_ARC.c:311-320. -/
def evict (s : State R) (r : Req) : Res (State R) := if afterGhostHit s then replace s r else evictMiss s r

/-- `LP_ARC_remove`, LP_ARC.c:335-342. -/
def remove (s : State R) (id : ObjId) : Res (Bool × State R) :=
  Clock.algo.remove s.t1 id >>= fun a =>
  Clock.algo.remove s.t2 id >>= fun b => .ok (a.1 || b.1, { s with t1 := a.2, t2 := b.2 })

/-- The function table of `LP_ARC_init`, LP_ARC.c:86-97.  `get` is `LP_ARC_get_debug` (530-553): it counts the request, calls `find`, evicts until there is room and
inserts, without asking `can_insert`; hence `canInsert` says yes here.  The byte and object counts are those of T1 and T2 (344-353).  The eviction loop runs at most once
per cached object; one more round faults. -/
def algo (R : Arith) : Algo (State R) where
  find := find
  insert := insert
  evict := evict
  remove := remove
  canInsert := fun s _ => (true, s)
  occ := fun s => s.t1.base.occ + s.t2.base.occ
  nObj := fun s => s.t1.base.nObj + s.t2.base.nObj
  cacheSize := fun s => s.cacheSize
  md := fun _ => 0
  bump := fun s => { s with nReq := s.nReq + 1 }
  fuel := fun s => s.t1.base.tbl.length + s.t2.base.tbl.length + 1

end Verif.LPARC
