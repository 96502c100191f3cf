import Verif.Base.Types
/-!
# TTL_FIFO (libCacheSim/cache/eviction/unsupported/TTL_FIFO.c)

A cache for objects with a time to live, written against an earlier interface. The glib hash table is the map from object ids to nodes it is meant to be: the code makes it with `g_int64_hash`, which reads
the id behind the pointer, and `g_direct_equal`, which compares the pointers themselves (line 32), and this mismatch is not modelled. A glib queue is the list of the ids of its nodes.
Times and sizes are unbounded; times to live are not negative.
-/

namespace Verif.TTLFIFO
open Verif

/-- the fields of `request_t` that are used -/
structure TReq where
  id : ObjId
  size : Nat
  /-- `clock_time` -/
  time : Nat
  ttl : Nat
deriving DecidableEq, Repr

/-- the fields of `cache_obj_t` that are used -/
structure TObj where
  id : ObjId
  size : Nat
  exp : Nat
deriving DecidableEq, Repr

/-- `TTL_FIFO_params_t`, TTL_FIFO.h:27-32, and `used_size`, `req_cnt` of the cache. `start_ts` is -1 at first. -/
structure State where
  start : Option Nat := none
  table : ObjId → Option TObj := fun _ => none
  queues : Nat → List ObjId := fun _ => []
  pos : Nat := 0
  used : Nat := 0
  cnt : Nat := 0

/-- `MAX_TTL`, TTL_FIFO.h:25: 60 days -/
def maxTtl : Nat := 5184000

/-- `_get_idx`, TTL_FIFO.c:23-25 -/
def getIdx (M ts : Nat) : Nat := if ts > M then M - 1 else ts

/-- `_TTL_FIFO_insert`, TTL_FIFO.c:63-80; `exp_time` is set in cacheObj.c:32 -/
def insert (M : Nat) (s : State) (r : TReq) : Res State :=
  let start := s.start.getD r.time
  let idx := getIdx M (r.time + r.ttl - start)
  if idx < M then
    .ok { s with
      start := some start
      used := s.used + r.size
      pos := if idx < s.pos then idx else s.pos
      queues := fun i => if i = idx then s.queues i ++ [r.id] else s.queues i
      table := fun i => if i = r.id then some ⟨r.id, r.size, r.time + r.ttl⟩ else s.table i }
  else .error .outOfBounds

/-- the loop of `_TTL_FIFO_evict`, TTL_FIFO.c:84-90: the first queue from `pos` on that is not empty; `fuel` queues are left -/
def advance (queues : Nat → List ObjId) : Nat → Nat → Res Nat
  | 0, _ => .error .abort
  | fuel + 1, pos => if queues pos = [] then advance queues fuel (pos + 1) else .ok pos

/-- `_TTL_FIFO_evict`, TTL_FIFO.c:82-97 -/
def evict (M : Nat) (s : State) : Res State :=
  advance s.queues (M - s.pos) s.pos >>= fun pos =>
  match s.queues pos with
  | [] => .error .nullDeref
  | id :: rest =>
    match s.table id with
    | none => .error .useAfterFree
    | some o =>
      if s.used ≥ o.size then
        .ok { s with
          pos := pos
          used := s.used - o.size
          queues := fun i => if i = pos then rest else s.queues i
          table := fun i => if i = id then none else s.table i }
      else .error .assertFail

/-- `while (cache->used_size > cache->size) _TTL_FIFO_evict`, TTL_FIFO.c:146-147 -/
def shrink (M cs : Nat) : Nat → State → Res State
  | 0, s => if s.used > cs then .error .diverge else .ok s
  | n + 1, s => if s.used > cs then evict M s >>= shrink M cs n else .ok s

/-- `TTL_FIFO_check_and_update_with_ttl`, TTL_FIFO.c:116-135: `none` is a miss, `some true` a hit, `some false` an expired object, which is renewed -/
def check (M : Nat) (s : State) (r : TReq) : Res (Option Bool × State) :=
  match s.table r.id with
  | none => .ok (none, s)
  | some o =>
    if o.exp < r.time then
      let start := s.start.getD 0
      let old := getIdx M (o.exp - start)
      let new := getIdx M (r.time + r.ttl - start)
      if old < M ∧ new < M then
        if r.id ∈ s.queues old then
          let q1 : Nat → List ObjId := fun i => if i = old then (s.queues i).erase r.id else s.queues i
          .ok (some false, { s with
            queues := fun i => if i = new then q1 i ++ [r.id] else q1 i
            table := fun i => if i = r.id then some { o with exp := r.time + r.ttl } else s.table i })
        else .error .notLinked
      else .error .outOfBounds
    else .ok (some true, s)

/-- `TTL_FIFO_get_with_ttl`, TTL_FIFO.c:137-155, after the default time to live was filled in -/
def get (M cs : Nat) (s : State) (r : TReq) : Res (Bool × State) :=
  check M s r >>= fun p =>
  (if r.size ≤ cs then
    (if p.1 = none then insert M p.2 r else .ok p.2) >>= fun s1 => shrink M cs (s1.cnt + 1) s1
  else .ok p.2) >>= fun s2 =>
  .ok (decide (p.1 = some true), { s2 with cnt := s2.cnt + 1 })

/-- `TTL_FIFO_remove_obj`, TTL_FIFO.c:99-112: here the position is not limited -/
def remove (M : Nat) (s : State) (id : ObjId) : Res State :=
  match s.table id with
  | none => .error .abort
  | some o =>
    if s.used ≥ o.size then
      let idx := o.exp - s.start.getD 0
      if idx < M then
        if id ∈ s.queues idx then
          .ok { s with
            used := s.used - o.size
            queues := fun i => if i = idx then (s.queues i).erase id else s.queues i
            table := fun i => if i = id then none else s.table i }
        else .error .notLinked
      else .error .outOfBounds
    else .error .assertFail

/-- requests one after the other -/
def run (M cs : Nat) : State → List TReq → Res (List Bool × State)
  | s, [] => .ok ([], s)
  | s, r :: rs => get M cs s r >>= fun p => run M cs p.2 rs >>= fun q => .ok (p.1 :: q.1, q.2)

end Verif.TTLFIFO
