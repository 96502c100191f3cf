import Verif.Algo.Queue
/-!
# libCacheSim/cache/eviction/belady/FIFO_Belady.c and LRU_Belady.c

As compiled: `USE_BELADY_EVICTION` is defined, `USE_BELADY_INSERTION` and `USE_BELADY_PROMOTION` are not.  The two files differ only in what
a hit does: LRU_Belady moves the object to the head.

The threshold `n_req_thresh` of `should_insert` is computed in floating point from the number of misses, the number of requests and the
cache size; it is a parameter, `Thresh`.
-/

namespace Verif.BeladyQueue
open Verif

/-- `n_req_thresh` as a function of `n_miss`, `n_req` and `cache_size`. -/
abbrev Thresh := Nat → Nat → Nat → Int

/-- The threshold in exact arithmetic: cache size divided by the miss ratio, rounded down. -/
def Thresh.exact : Thresh := fun nMiss nReq cs => ((cs * nReq / nMiss : Nat) : Int)

/-- `FIFO_Belady_params_t`, FIFO_Belady.c:23-27 (`LRU_Belady_params_t`, LRU_Belady.c:24-28), next to the `cache_t` part.  `FIFO_Belady_get`
increments `n_miss` when `cache_get_base` has returned a miss; in the model the last function called by such a `cache_get_base` does it: the
refusing `can_insert`, or the `insert` that follows an accepting one, which `missing` announces. -/
structure State where
  base : Base Unit
  q : List ObjId
  nMiss : Nat
  missing : Bool
deriving DecidableEq, Repr

def State.qs (s : State) : QState Unit := ⟨s.base, s.q⟩

/-- `should_insert`, FIFO_Belady.c:137-148, LRU_Belady.c:142-153. -/
def due (T : Thresh) (s : State) (next : Int) : Bool :=
  decide (next - (s.base.nReq : Int) ≤ T s.nMiss s.base.nReq s.base.cacheSize)

/-- `FIFO_Belady_find`, FIFO_Belady.c:160-166 (`promote = false`), and `LRU_Belady_find`, LRU_Belady.c:165-181 (`promote = true`). -/
def find (promote : Bool) (s : State) (r : Req) (update : Bool) : Res (Bool × State) :=
  match s.base.findBase r update with
  | (none, b) => .ok (false, { s with base := b })
  | (some _, b) =>
    if update && promote then qMoveToHead s.q r.id >>= fun q' => .ok (true, { s with base := b, q := q' })
    else .ok (true, { s with base := b })

/-- `cache_can_insert_default`; when it refuses, the `get` ends (FIFO_Belady.c:123-129, LRU_Belady.c:128-134). -/
def canInsert (s : State) (r : Req) : Bool × State :=
  match s.base.canInsertDefault r with
  | (true, b) => (true, { s with base := b, missing := true })
  | (false, b) => (false, { s with base := b, nMiss := s.nMiss + 1 })

/-- `FIFO_Belady_insert`, FIFO_Belady.c:178-194, LRU_Belady.c:193-209. -/
def insert (s : State) (r : Req) : Res State :=
  s.qs.insert () r >>= fun x =>
  .ok { base := x.base, q := x.q, nMiss := if s.missing then s.nMiss + 1 else s.nMiss, missing := false }

/-- `FIFO_Belady_evict`, FIFO_Belady.c:204-222, LRU_Belady.c:219-237. -/
def evict (T : Thresh) (s : State) : Res State :=
  qTail s.q >>= fun id =>
  match s.base.lookup id with
  | none => .error .useAfterFree
  | some o =>
    if due T s o.miscNext then qMoveToHead s.q id >>= fun q' => .ok { s with q := q' }
    else qRemove s.q id >>= fun q' => s.base.evictBase id >>= fun b => .ok { s with base := b, q := q' }

/-- `FIFO_Belady_remove`, FIFO_Belady.c:261-272, LRU_Belady.c:276-287. -/
def remove (s : State) (id : ObjId) : Res (Bool × State) :=
  s.qs.remove id >>= fun p => .ok (p.1, { s with base := p.2.base, q := p.2.q })

/-- The function table set up by `FIFO_Belady_init`, FIFO_Belady.c:59-70, and `LRU_Belady_init`, LRU_Belady.c:60-71.  A call of `evict` that
moves an object to the head does not change what `should_insert` says of any object, so when every object has been at the tail once and
there is still no room, the loop of `cache_get_base` never ends. -/
def algo (T : Thresh) (promote : Bool) : Algo State where
  find := find promote
  insert := insert
  evict := fun s _ => evict T s
  remove := remove
  canInsert := canInsert
  occ := fun s => s.base.occ
  nObj := fun s => s.base.nObj
  cacheSize := fun s => s.base.cacheSize
  md := fun s => s.base.objMd
  bump := fun s => { s with base := s.base.bump }
  fuel := fun s => s.q.length

/-- `FIFO_Belady_init`, FIFO_Belady.c:56-95, `LRU_Belady_init`, LRU_Belady.c:57-100. -/
def init (cacheSize md : Nat) (adm : Adm) : State :=
  { base := Base.init cacheSize md adm, q := [], nMiss := 0, missing := false }

end Verif.BeladyQueue
