import Verif.Algo.LRU
import Verif.Algo.LeCaR
import Verif.Algo.S3FIFO
/-!
# libCacheSim/cache/eviction/LeCaRv0.c

LeCaR built from four caches: an LRU and an LFU cache with the same contents, and two LRU caches with the histories of what the two experts evicted.
Modelled with object metadata not considered (the default): then all metadata sizes are 0.  `DEBUG_ASSERT`s are compiled out.  As in `Verif/Algo/LeCaR.lean` the weights are
left open (`LeCaR.Arith`; `update_weight` is lines 326-336) and the results of `next_rand() % 100` are a parameter (`picks`).
-/

namespace Verif.LeCaRv0
open Verif
open Verif.LeCaR (Arith)

/-- `LeCaRv0_params_t`, LeCaRv0.c:21-33, next to the outer `cache_t` (`out`), of which only the size, the request counter and the admission policy are used.
`vtLru`, `vtLfu` are the fields `LeCaR.eviction_vtime` of the objects in `LRU_g` and `LFU_g`; they are written right after the object got there.  The statistics
`n_hit_lru_history` and `n_hit_lfu_history` are never read and left out. -/
structure State (R : Arith) where
  out : Base Unit
  lru : LRU.State
  lfu : LFU.State
  lruG : LRU.State
  lfuG : LRU.State
  vtLru : ObjId → Int
  vtLfu : ObjId → Int
  w : R.W
  picks : List Nat

variable {R : Arith}

/-- `obj->LeCaR.eviction_vtime = cache->n_req`: the field is an `int64_t` of 40 bits (cacheObj.h:42). -/
def stamp (n : Nat) : Int := Int.bmod n (2 ^ 40)

/-- writing the field of one object -/
def setVt (f : ObjId → Int) (id : ObjId) (t : Int) : ObjId → Int := fun i => if i = id then t else f i

/-- `check_and_update_history`, LeCaRv0.c:338-360. -/
def history (s : State R) (r : Req) : Res (State R) :=
  LRU.algo.find s.lruG r false >>= fun a =>
  LRU.algo.find s.lfuG r false >>= fun b =>
  if a.1 then
    LRU.algo.remove a.2 r.id >>= fun g => .ok { s with w := R.updLru s.w (s.out.nReq - s.vtLru r.id), lruG := g.2, lfuG := b.2 }
  else if b.1 then
    LRU.algo.remove b.2 r.id >>= fun g => .ok { s with w := R.updLfu s.w (s.out.nReq - s.vtLfu r.id), lruG := a.2, lfuG := g.2 }
  else .ok { s with lruG := a.2, lfuG := b.2 }

/-- `LeCaRv0_find`, LeCaRv0.c:181-201: the answer is that of the LRU cache. -/
def find (s : State R) (r : Req) (update : Bool) : Res (Bool × State R) :=
  LRU.algo.find s.lru r update >>= fun a =>
  LFU.algo.find s.lfu r update >>= fun b =>
  if update = true ∧ a.1 = false then history { s with lru := a.2, lfu := b.2 } r >>= fun s' => .ok (a.1, s')
  else .ok (a.1, { s with lru := a.2, lfu := b.2 })

/-- `LeCaRv0_insert`, LeCaRv0.c:213-222. -/
def insert (s : State R) (r : Req) : Res (State R) :=
  LRU.algo.insert s.lru r >>= fun l =>
  LFU.algo.insert s.lfu r >>= fun f =>
  .ok { s with lru := l, lfu := f, out := { s.out with nObj := s.out.nObj + 1 } }

/-- `LeCaRv0_to_evict`, LeCaRv0.c:234-243: draws a random number; without the LRU expert the answer is NULL. -/
def toEvict (s : State R) : Res (Option ObjId × State R) :=
  if R.lruWins s.w (s.picks.headD 0) then .ok (LRU.toEvict s.lru, { s with picks := s.picks.tail })
  else match LFU.toEvict s.lfu with
    | none => .error .nullDeref
    | some _ => .ok (none, { s with picks := s.picks.tail, lfu := LFU.fixMin s.lfu })

/-- The victim enters a history and is looked up again, LeCaRv0.c:275-277 and 283-285: a NULL dereference when it is not there. -/
def remember (g : LRU.State) (r : Req) : Res LRU.State :=
  LRU.algo.get g r >>= fun p => LRU.algo.find p.2 r false >>= fun q => if q.1 then .ok q.2 else .error .nullDeref

/-- LeCaRv0.c:265-267 and 271-273: the LRU victim leaves both caches; the request it is copied to is returned. -/
def dropLru (s : State R) (id : ObjId) (r : Req) : Res (Req × State R) :=
  match s.lru.base.lookup id with
  | none => .error .useAfterFree
  | some o =>
    LFU.algo.remove s.lfu id >>= fun f =>
    LRU.algo.evict s.lru r >>= fun l => .ok (o.toReq, { s with lru := l, lfu := f.2 })

/-- LeCaRv0.c:279-281: the LFU victim leaves both caches. -/
def dropLfu (s : State R) (id : ObjId) (r : Req) : Res (Req × State R) :=
  match s.lfu.base.lookup id with
  | none => .error .useAfterFree
  | some o =>
    LRU.algo.remove s.lru id >>= fun l =>
    LFU.algo.evict s.lfu r >>= fun f => .ok (o.toReq, { s with lru := l.2, lfu := f })

/-- `LeCaRv0_evict`, LeCaRv0.c:253-288.  `LFU->to_evict` may write `min_freq`. -/
def evict (s0 : State R) (r : Req) : Res (State R) :=
  match LRU.toEvict s0.lru, LFU.toEvict s0.lfu with
  | some a, some b =>
    if a = b then dropLru { s0 with lfu := LFU.fixMin s0.lfu } a r >>= fun p => .ok p.2
    else if R.lruWins s0.w (s0.picks.headD 0) then
      dropLru { s0 with lfu := LFU.fixMin s0.lfu, picks := s0.picks.tail } a r >>= fun p =>
      remember p.2.lruG p.1 >>= fun g => .ok { p.2 with lruG := g, vtLru := setVt p.2.vtLru a (stamp s0.out.nReq) }
    else
      dropLfu { s0 with lfu := LFU.fixMin s0.lfu, picks := s0.picks.tail } b r >>= fun p =>
      remember p.2.lfuG p.1 >>= fun g => .ok { p.2 with lfuG := g, vtLfu := setVt p.2.vtLfu b (stamp s0.out.nReq) }
  | _, _ => .error .nullDeref

/-- `LeCaRv0_remove`, LeCaRv0.c:303-319 (the messages are not modelled). -/
def remove (s : State R) (id : ObjId) : Res (Bool × State R) :=
  LRU.algo.remove s.lru id >>= fun l =>
  match s.lfu.base.lookup id with
  | none => .ok (false, { s with lru := l.2 })
  | some _ => LFU.algo.remove s.lfu id >>= fun f => .ok (true, { s with lru := l.2, lfu := f.2 })

/-- The function table, LeCaRv0.c:83-92 and 55-67: the counters are those of the LRU cache; `can_insert` is the default of the outer cache, and `get` is
`cache_get_base`. -/
def algo (R : Arith) : Algo (State R) where
  find := find
  insert := insert
  evict := evict
  remove := remove
  canInsert := fun s r => ((s.out.canInsertDefault r).1, { s with out := (s.out.canInsertDefault r).2 })
  occ := fun s => s.lru.base.occ
  nObj := fun s => s.lru.base.nObj
  cacheSize := fun s => s.out.cacheSize
  md := fun s => s.out.objMd
  bump := fun s => { s with out := s.out.bump }
  fuel := fun s => s.lru.base.tbl.length + 1

/-- `LeCaRv0_init`, LeCaRv0.c:80-120.  The inner caches have no admission policy.  The histories have `(uint64_t)((double)cache_size / 2 * 1)` bytes: half of
the cache size, exact below 2^53.  `vt0` stands for the unset fields. -/
def init (cacheSize : Nat) (adm : Adm) (picks : List Nat) (vt0 : ObjId → Int) : State R :=
  { out := Base.init cacheSize 0 adm, lru := LRU.init cacheSize 0 .none, lfu := LFU.init cacheSize 0 .none, lruG := LRU.init (cacheSize / 2) 0 .none,
    lfuG := LRU.init (cacheSize / 2) 0 .none, vtLru := vt0, vtLfu := vt0, w := R.init, picks := picks }

end Verif.LeCaRv0
