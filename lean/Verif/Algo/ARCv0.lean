import Verif.Algo.LRU
import Verif.Algo.ARC
/-!
# libCacheSim/cache/eviction/ARCv0.c

ARC built from four LRU caches.  Modelled with object metadata not considered (the default): then all metadata sizes are 0.  `DEBUG_ASSERT`s are compiled out;
`LAZY_PROMOTION`, `QUICK_DEMOTION` and `DEBUG_MODE` are off (lines 27-31).  As in `Verif/Algo/ARC.lean` the arithmetic on the target `p` is left open (`ARC.Arith`).
-/

namespace Verif.ARCv0
open Verif
open Verif.ARC (Arith)

/-- `ARCv0_params_t`, ARCv0.c:33-45, next to the outer `cache_t` (`out`), of which only the size, the request counter and the admission policy are used. -/
structure State (R : Arith) where
  out : Base Unit
  t1 : LRU.State
  b1 : LRU.State
  t2 : LRU.State
  b2 : LRU.State
  p : R.P
  /-- `curr_obj_in_L1_ghost` -/
  inB1 : Bool
  /-- `curr_obj_in_L2_ghost` -/
  inB2 : Bool
  /-- `vtime_last_req_in_ghost` -/
  vtime : Int

variable {R : Arith}

/-- `ARCv0_init`, ARCv0.c:92-143: every LRU cache is as large as the cache itself and has no admission policy. -/
def init (cacheSize : Nat) (adm : Adm) : State R :=
  { out := Base.init cacheSize 0 adm, t1 := LRU.init cacheSize 0 .none, b1 := LRU.init cacheSize 0 .none, t2 := LRU.init cacheSize 0 .none,
    b2 := LRU.init cacheSize 0 .none, p := R.zero, inB1 := false, inB2 := false, vtime := -1 }

/-- A ghost is hit, ARCv0.c:229-254: `a` says whether the object is in B1; otherwise it is in B2. -/
def ghostHit (s : State R) (r : Req) (a : Bool) : Res (State R) :=
  if a then
    LRU.algo.remove s.b1 r.id >>= fun g =>
    .ok { s with p := R.up s.p s.b2.base.occ s.b1.base.occ s.out.cacheSize, b1 := g.2, inB1 := true, inB2 := false, vtime := s.out.nReq }
  else
    LRU.algo.remove s.b2 r.id >>= fun g =>
    .ok { s with p := R.down s.p s.b1.base.occ s.b2.base.occ, b2 := g.2, inB1 := false, inB2 := true, vtime := s.out.nReq }

/-- A hit, ARCv0.c:229-230 and 255-268: `misc.freq` is not read without `LAZY_PROMOTION`. -/
def hit (s : State R) (r : Req) (inT1 : Bool) : Res (State R) :=
  if inT1 then
    LRU.algo.remove s.t1 r.id >>= fun a =>
    LRU.algo.get s.t2 r >>= fun b => .ok { s with t1 := a.2, t2 := b.2, inB1 := false, inB2 := false }
  else
    LRU.algo.find s.t2 r true >>= fun b => .ok { s with t2 := b.2, inB1 := false, inB2 := false }

/-- `ARCv0_find`, ARCv0.c:206-271.  After a hit in T1 the returned pointer is that of the freed object; the callers only compare it with NULL. -/
def find (s : State R) (r : Req) (update : Bool) : Res (Bool × State R) :=
  LRU.algo.find s.t1 r false >>= fun a =>
  LRU.algo.find s.t2 r false >>= fun b =>
  if update = false then .ok (a.1 || b.1, { s with t1 := a.2, t2 := b.2 })
  else
    LRU.algo.find s.b1 r false >>= fun c =>
    LRU.algo.find s.b2 r false >>= fun d =>
    if (a.1 || b.1) = false ∧ (c.1 || d.1) = false then .ok (false, { s with t1 := a.2, t2 := b.2, b1 := c.2, b2 := d.2 })
    else if (c.1 || d.1) = true then
      ghostHit { s with t1 := a.2, t2 := b.2, b1 := c.2, b2 := d.2 } r c.1 >>= fun s' => .ok (a.1 || b.1, s')
    else
      hit { s with t1 := a.2, t2 := b.2, b1 := c.2, b2 := d.2 } r a.1 >>= fun s' => .ok (a.1 || b.1, s')

/-- `vtime_last_req_in_ghost == n_req && (curr_obj_in_L1_ghost || curr_obj_in_L2_ghost)`, ARCv0.c:289-290, 319-320, 339-340. -/
def afterGhostHit (s : State R) : Bool := decide (s.vtime = s.out.nReq) && (s.inB1 || s.inB2)

/-- `ARCv0_insert`, ARCv0.c:284-304. -/
def insert (s : State R) (r : Req) : Res (State R) :=
  if afterGhostHit s then
    LRU.algo.insert s.t2 r >>= fun q => .ok { s with t2 := q, inB1 := false, inB2 := false, vtime := -1 }
  else LRU.algo.insert s.t1 r >>= fun q => .ok { s with t1 := q }

/-- The choice of `_ARCv0_to_replace`, ARCv0.c:394-395. -/
def overTarget (s : State R) : Bool :=
  decide (s.t1.base.occ > 0) && (R.gt s.t1.base.occ s.p || (R.eq s.t1.base.occ s.p && s.inB2))

/-- `_ARCv0_to_replace`, ARCv0.c:388-404. -/
def toReplace (s : State R) : Option ObjId := if overTarget s then LRU.toEvict s.t1 else LRU.toEvict s.t2

/-- The choice of `_ARCv0_replace`, ARCv0.c:413-418. -/
def fromT1 (s : State R) : Bool := overTarget s || decide (s.t2.base.occ = 0)

/-- The oldest object of an LRU cache as a request: `to_evict` and `copy_cache_obj_to_request`, ARCv0.c:420-422, 435-437.  NULL dereference when the cache is empty. -/
def oldest (q : LRU.State) : Res Req :=
  match LRU.toEvict q with
  | none => .error .nullDeref
  | some id =>
    match q.base.lookup id with
    | none => .error .useAfterFree
    | some o => .ok o.toReq

/-- `_ARCv0_replace`, ARCv0.c:407-441. -/
def replace (s : State R) (r : Req) : Res (State R) :=
  if fromT1 s then
    oldest s.t1 >>= fun o =>
    LRU.algo.get s.b1 o >>= fun g =>
    LRU.algo.evict s.t1 r >>= fun q => .ok { s with t1 := q, b1 := g.2 }
  else
    oldest s.t2 >>= fun o =>
    LRU.algo.evict s.t2 r >>= fun q =>
    LRU.algo.get s.b2 o >>= fun g => .ok { s with t2 := q, b2 := g.2 }

/-- `_ARCv0_to_evict_miss_on_all_queues`, ARCv0.c:445-465. -/
def toEvictMiss (s : State R) (r : Req) : Option ObjId :=
  if s.t1.base.occ + s.b1.base.occ + r.size > (s.out.cacheSize : Int) then
    if s.b1.base.occ > 0 then toReplace s else LRU.toEvict s.t1
  else toReplace s

/-- The loop of `_ARCv0_evict_miss_on_all_queues`, ARCv0.c:503-508.  Each round takes one object off B2 and faults when B2 is empty, so one round more than there
are objects is enough fuel. -/
def shrinkB2 (s : State R) (r : Req) : Nat → LRU.State → Res LRU.State
  | 0, _ => .error .diverge
  | n + 1, q =>
    if s.t1.base.occ + s.b1.base.occ + s.t2.base.occ + q.base.occ ≥ (s.out.cacheSize : Int) * 2 then
      LRU.algo.evict q r >>= fun q' => shrinkB2 s r n q'
    else .ok q

/-- `_ARCv0_evict_miss_on_all_queues`, ARCv0.c:468-511. -/
def evictMiss (s : State R) (r : Req) : Res (State R) :=
  if s.t1.base.occ + s.b1.base.occ + r.size > (s.out.cacheSize : Int) then
    if s.b1.base.occ > 0 then
      LRU.algo.evict s.b1 r >>= fun g => replace { s with b1 := g } r
    else LRU.algo.evict s.t1 r >>= fun q => .ok { s with t1 := q }
  else shrinkB2 s r (s.b2.base.tbl.length + 1) s.b2 >>= fun g => replace { s with b2 := g } r

/-- `ARCv0_to_evict`, ARCv0.c:316-326. -/
def toEvict (s : State R) (r : Req) : Option ObjId := if afterGhostHit s then toReplace s else toEvictMiss s r

/-- `ARCv0_evict`, ARCv0.c:337-346. -/
def evict (s : State R) (r : Req) : Res (State R) := if afterGhostHit s then replace s r else evictMiss s r

/-- `ARCv0_remove`, ARCv0.c:361-368. -/
def remove (s : State R) (id : ObjId) : Res (Bool × State R) :=
  LRU.algo.remove s.t1 id >>= fun a =>
  LRU.algo.remove s.t2 id >>= fun b => .ok (a.1 || b.1, { s with t1 := a.2, t2 := b.2 })

/-- The function table of `ARCv0_init`, ARCv0.c:96-106; `get` is `cache_get_base` (181-188), `can_insert` is `cache_can_insert_default`, the byte and object counts are
those of T1 and T2 (370-379).  The eviction loop runs at most once per cached object (one more round, which faults, is possible when the counters drift). -/
def algo (R : Arith) : Algo (State R) where
  find := find
  insert := insert
  evict := evict
  remove := remove
  canInsert := fun s r => let q := s.out.canInsertDefault r; (q.1, { s with out := q.2 })
  occ := fun s => s.t1.base.occ + s.t2.base.occ
  nObj := fun s => s.t1.base.nObj + s.t2.base.nObj
  cacheSize := fun s => s.out.cacheSize
  md := fun s => s.out.objMd
  bump := fun s => { s with out := s.out.bump }
  fuel := fun s => s.t1.base.tbl.length + s.t2.base.tbl.length + 1

end Verif.ARCv0
