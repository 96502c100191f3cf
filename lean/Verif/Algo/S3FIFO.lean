import Verif.Algo.Ghost
/-!
# libCacheSim/cache/eviction/S3FIFO.c

A composite of three FIFO caches: the small queue `fifo`, the main queue and, unless its configured size is 0, the ghost
queue.  All three are created by `FIFO_init` with `obj_md_size` 0; S3FIFO sets its own `obj_md_size` to 0 as well.

Simplifications: the three sizes are parameters (the C code multiplies the cache size with floating-point ratios,
S3FIFO.c:107-111); `S3FIFO.freq` is a natural number (`int64_t` in C, read into an `int` at line 386); the
statistics counters `n_obj_admit_to_*`, `n_byte_*` are not kept.  `S3FIFO_can_insert` never asks the admission
policy, so none is modelled.
-/

namespace Verif.S3FIFO
open Verif

/-- `S3FIFO_params_t`, S3FIFO.c:26-50, and the `cache_t` fields in use.  The objects of `fifo` and `main` carry
`S3FIFO.freq` (cacheObj.h:120-124); nothing reads that field of ghost entries. -/
structure State where
  nReq : Nat := 0
  cacheSize : Nat
  fifo : QState Nat
  main : QState Nat
  /-- `fifo_ghost`, NULL when its size is 0 -/
  ghost : Option FIFO.State
  hitOnGhost : Bool := false
  /-- `move_to_main_threshold` -/
  threshold : Nat

/-- `S3FIFO_init`, S3FIFO.c:83-148. -/
def init (cacheSize fifoSize ghostSize threshold : Nat) : State :=
  { cacheSize := cacheSize
    fifo := QState.init fifoSize 0 .none
    main := QState.init (cacheSize - fifoSize) 0 .none
    ghost := ghostInit ghostSize
    threshold := threshold }

/-- `obj->S3FIFO.freq += 1` -/
def hit (o : Obj Nat) : Obj Nat := { o with mt := o.mt + 1 }

/-- `S3FIFO_find` with `update_cache`, S3FIFO.c:239-259. -/
def findUpdate (s : State) (r : Req) : Res (Bool × State) :=
  match s.fifo.findFIFO r true with
  | (some _, f) => .ok (true, { s with hitOnGhost := false, fifo := f.modify r.id hit })
  | (none, f) =>
    ghostRemove s.ghost r.id >>= fun p =>
    match s.main.findFIFO r true with
    | (some _, m) => .ok (true, { s with hitOnGhost := p.1, fifo := f, ghost := p.2, main := m.modify r.id hit })
    | (none, m) => .ok (false, { s with hitOnGhost := p.1, fifo := f, ghost := p.2, main := m })

/-- `S3FIFO_find`, S3FIFO.c:222-259; without `update_cache` lines 227-237. -/
def find (s : State) (r : Req) (update : Bool) : Res (Bool × State) :=
  if update then findUpdate s r
  else .ok ((s.fifo.findFIFO r false).1.isSome || (s.main.findFIFO r false).1.isSome, s)

/-- `S3FIFO_insert`, S3FIFO.c:272-303. -/
def insert (s : State) (r : Req) : Res State :=
  if s.hitOnGhost then
    s.main.insert 0 r >>= fun m => .ok { s with hitOnGhost := false, main := m }
  else if r.size ≥ s.fifo.base.cacheSize then .ok s
  else s.fifo.insert 0 r >>= fun f => .ok { s with fifo := f }

/-- `fifo->remove(...)` followed by `assert(removed)`, S3FIFO.c:367-368. -/
def removeAsserted (q : QState Nat) (id : ObjId) : Res (QState Nat) :=
  q.remove id >>= fun p => if p.1 then .ok p.2 else .error .assertFail

/-- `S3FIFO_evict_fifo`, S3FIFO.c:320-370: the loop, with a bound on its iterations. -/
def evictFifo : Nat → State → Res State
  | 0, s => if s.fifo.base.occ > 0 then .error .diverge else .ok s
  | n + 1, s =>
    if s.fifo.base.occ > 0 then
      s.fifo.tailObj >>= fun o =>
      if o.mt ≥ s.threshold then
        s.main.insert 0 o.toReq >>= fun m =>
        removeAsserted s.fifo o.id >>= fun f =>
        evictFifo n { s with main := m.modify o.id (fun x => { x with miscFreq := o.miscFreq }), fifo := f }
      else
        ghostGet s.ghost o.toReq >>= fun g =>
        removeAsserted s.fifo o.id >>= fun f => .ok { s with ghost := g, fifo := f }
    else .ok s

/-- `S3FIFO_evict_main`, S3FIFO.c:372-417: the loop, with a bound on its iterations.  A failing `main->remove` is
ignored in the reinsertion branch (line 394) and calls `ERROR` (abort) in the other (lines 411-413). -/
def evictMain : Nat → State → Res State
  | 0, s => if s.main.base.occ > 0 then .error .diverge else .ok s
  | n + 1, s =>
    if s.main.base.occ > 0 then
      s.main.tailObj >>= fun o =>
      if o.mt ≥ 1 then
        s.main.remove o.id >>= fun p =>
        p.2.insert 0 o.toReq >>= fun m =>
        evictMain n { s with main := m.modify o.id (fun x => { x with mt := min o.mt 3 - 1, miscFreq := (o.mt : Int) }) }
      else
        s.main.remove o.id >>= fun p =>
        if p.1 then .ok { s with main := p.2 } else .error .abort
    else .ok s

/-- total of the frequencies, which bounds the number of reinsertions -/
def freqSum (b : Base Nat) : Nat := (b.tbl.map (·.mt)).sum

/-- `S3FIFO_evict`, S3FIFO.c:428-440. -/
def evict (s : State) : Res State :=
  if s.main.base.occ > (s.main.base.cacheSize : Int) ∨ s.fifo.base.occ = 0 then
    evictMain (freqSum s.main.base + 1) s
  else evictFifo s.fifo.base.tbl.length s

/-- `S3FIFO_remove`, S3FIFO.c:455-464: the first queue that has the object. -/
def remove (s : State) (id : ObjId) : Res (Bool × State) :=
  s.fifo.remove id >>= fun p =>
  if p.1 then .ok (true, { s with fifo := p.2 })
  else
    ghostRemove s.ghost id >>= fun g =>
    if g.1 then .ok (true, { s with fifo := p.2, ghost := g.2 })
    else
      s.main.remove id >>= fun m => .ok (m.1, { s with fifo := p.2, ghost := g.2, main := m.2 })

/-- `S3FIFO_can_insert`, S3FIFO.c:478-482. -/
def canInsert (s : State) (r : Req) : Bool × State := (decide (r.size ≤ s.fifo.base.cacheSize), s)

/-- The function table, S3FIFO.c:85-98. -/
def algo : Algo State where
  find := find
  insert := insert
  evict := fun s _ => evict s
  remove := remove
  canInsert := canInsert
  occ := fun s => s.fifo.base.occ + s.main.base.occ
  nObj := fun s => s.fifo.base.nObj + s.main.base.nObj
  cacheSize := fun s => s.cacheSize
  md := fun _ => 0
  bump := fun s => { s with nReq := s.nReq + 1 }
  fuel := fun s => 2 * s.fifo.base.tbl.length + s.main.base.tbl.length

end Verif.S3FIFO
