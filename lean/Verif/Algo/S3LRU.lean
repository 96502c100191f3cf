import Verif.Algo.LRU
/-!
# libCacheSim/cache/eviction/other/S3LRU.c, with an LRU main cache (the default)

A composite of a small FIFO cache (the C code calls it `LRU`, but creates it with `FIFO_init`, S3LRU.c:118-119), an LRU main cache and, unless its configured
size is 0, an LRU ghost cache.

Simplifications: the three sizes are parameters (the C code multiplies the cache size with floating-point ratios, S3LRU.c:110-114).  Object metadata is not
considered, so the inner LRU caches have `obj_md_size` 0 like the outer cache.  The main cache types "clock" and "clock2" are not modelled (there
`S3FIFO.freq` and `clock.freq` share memory, cacheObj.h).  `S3FIFO.freq` is a natural number, kept for the small queue only: nothing reads it in the LRU
main cache.  `S3LRU_can_insert` never asks the admission policy, so none is modelled.  `S3LRU_to_evict` is an assertion failure (lines 321-324).
-/

namespace Verif.S3LRU
open Verif

/-- `S3LRU_params_t`, S3LRU.c:30-43, and the `cache_t` fields in use.  The objects of the small queue carry `S3FIFO.freq`. -/
structure State where
  nReq : Nat := 0
  cacheSize : Nat
  /-- `params->LRU` -/
  small : QState Nat
  main : LRU.State
  /-- `LRU_ghost`, NULL when its size is 0 -/
  ghost : Option LRU.State
  hitOnGhost : Bool := false
  /-- `promote_on_hit` -/
  promote : Bool
  /-- `move_to_main_threshold` -/
  threshold : Int

/-- `S3LRU_init`, S3LRU.c:80-154. -/
def init (cacheSize smallSize ghostSize : Nat) (promote : Bool) (threshold : Int) : State :=
  { cacheSize := cacheSize
    small := QState.init smallSize 0 .none
    main := LRU.init (cacheSize - smallSize) 0 .none
    ghost := if ghostSize > 0 then some (LRU.init ghostSize 0 .none) else none
    promote := promote
    threshold := threshold }

/-- `obj->S3FIFO.freq += 1`, S3LRU.c:240. -/
def hit (o : Obj Nat) : Obj Nat := { o with mt := o.mt + 1 }

/-- `params->LRU_ghost != NULL && params->LRU_ghost->remove(...)`, S3LRU.c:255-256. -/
def ghostRemove (g : Option LRU.State) (id : ObjId) : Res (Bool × Option LRU.State) :=
  match g with
  | none => .ok (false, none)
  | some g => LRU.algo.remove g id >>= fun p => .ok (p.1, some p.2)

/-- `if (ghost != NULL) ghost->get(ghost, params->req_local)`, S3LRU.c:354-356. -/
def ghostGet (g : Option LRU.State) (r : Req) : Res (Option LRU.State) :=
  match g with
  | none => .ok none
  | some g => LRU.algo.get g r >>= fun p => .ok (some p.2)

/-- `S3LRU_find` with `update_cache`, S3LRU.c:235-266.  A promoted object is removed from the small queue, which frees it, and inserted into the main cache
with the size of the request; the pointer returned is the dangling one (line 252), of which `cache_get_base` reads only whether it is NULL. -/
def findUpdate (s : State) (r : Req) : Res (Bool × State) :=
  match s.small.findFIFO r true with
  | (some o, f) =>
    if s.promote = true ∧ ((o.mt + 1 : Nat) : Int) ≥ s.threshold then
      (f.modify r.id hit).remove r.id >>= fun p =>
      LRU.algo.insert s.main r >>= fun m => .ok (true, { s with hitOnGhost := false, small := p.2, main := m })
    else .ok (true, { s with hitOnGhost := false, small := f.modify r.id hit })
  | (none, f) =>
    ghostRemove s.ghost r.id >>= fun p =>
    LRU.algo.find s.main r true >>= fun m => .ok (m.1, { s with hitOnGhost := p.1, small := f, ghost := p.2, main := m.2 })

/-- `S3LRU_find`, S3LRU.c:218-267; without `update_cache` lines 222-233. -/
def find (s : State) (r : Req) (update : Bool) : Res (Bool × State) :=
  if update then findUpdate s r
  else if (s.small.findFIFO r false).1.isSome then .ok (true, s)
  else LRU.algo.find s.main r false >>= fun m => .ok (m.1, { s with main := m.2 })

/-- `S3LRU_insert`, S3LRU.c:280-309. -/
def insert (s : State) (r : Req) : Res State :=
  if s.hitOnGhost then LRU.algo.insert s.main r >>= fun m => .ok { s with hitOnGhost := false, main := m }
  else if r.size > s.small.base.cacheSize then .ok s
  else s.small.insert 0 r >>= fun f => .ok { s with small := f }

/-- `LRU->remove(...)` followed by `assert(removed)`, S3LRU.c:358-359. -/
def removeAsserted (q : QState Nat) (id : ObjId) : Res (QState Nat) :=
  q.remove id >>= fun p => if p.1 then .ok p.2 else .error .assertFail

/-- `S3LRU_evict_LRU`, S3LRU.c:326-361: the loop, with a bound on its iterations. -/
def evictSmall : Nat → State → Res State
  | 0, s => if s.small.base.occ > 0 then .error .diverge else .ok s
  | n + 1, s =>
    if s.small.base.occ > 0 then
      s.small.tailObj >>= fun o =>
      if s.promote = false ∧ (o.mt : Int) ≥ s.threshold then
        LRU.algo.insert s.main o.toReq >>= fun m =>
        removeAsserted s.small o.id >>= fun f => evictSmall n { s with main := m, small := f }
      else
        ghostGet s.ghost o.toReq >>= fun g =>
        removeAsserted s.small o.id >>= fun f => .ok { s with ghost := g, small := f }
    else .ok s

/-- `S3LRU_evict`, S3LRU.c:392-406. -/
def evict (s : State) (r : Req) : Res State :=
  if s.main.base.occ > (s.main.base.cacheSize : Int) ∨ s.small.base.occ = 0 then
    LRU.algo.evict s.main r >>= fun m => .ok { s with main := m }
  else evictSmall s.small.base.tbl.length s

/-- `S3LRU_remove`, S3LRU.c:421-430: the first part that has the object. -/
def remove (s : State) (id : ObjId) : Res (Bool × State) :=
  s.small.remove id >>= fun p =>
  if p.1 then .ok (true, { s with small := p.2 })
  else
    ghostRemove s.ghost id >>= fun g =>
    if g.1 then .ok (true, { s with small := p.2, ghost := g.2 })
    else LRU.algo.remove s.main id >>= fun m => .ok (m.1, { s with small := p.2, ghost := g.2, main := m.2 })

/-- `S3LRU_can_insert`, S3LRU.c:444-448. -/
def canInsert (s : State) (r : Req) : Bool × State := (decide (r.size ≤ s.small.base.cacheSize), s)

/-- The function table, S3LRU.c:84-96; `S3LRU_get_occupied_byte` and `S3LRU_get_n_obj`, lines 432-442. -/
def algo : Algo State where
  find := find
  insert := insert
  evict := evict
  remove := remove
  canInsert := canInsert
  occ := fun s => s.small.base.occ + s.main.base.occ
  nObj := fun s => s.small.base.nObj + s.main.base.nObj
  cacheSize := fun s => s.cacheSize
  md := fun _ => 0
  bump := fun s => { s with nReq := s.nReq + 1 }
  fuel := fun s => 2 * s.small.base.tbl.length + s.main.base.tbl.length

end Verif.S3LRU
