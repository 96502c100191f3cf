import Verif.Algo.FIFO
import Verif.Algo.LRU
/-!
# libCacheSim/cache/eviction/TwoQ.c

A composite of the FIFO queue Ain, the FIFO queue Aout of evicted objects, and the LRU queue Am.

Simplifications: the sizes of Ain and Aout are parameters (the C code multiplies the cache size with floating-point ratios, TwoQ.c:98-100).  `amMd` is
the `obj_md_size` of the inner LRU cache: 0, or 16 when object metadata is considered (LRU.c:66-70); the other caches always have 0.  `TwoQ_can_insert`
never asks the admission policy, so none is modelled; the inner caches have none.
-/

namespace Verif.TwoQ
open Verif

/-- `TwoQ_params_t`, TwoQ.c:22-36, and the `cache_t` fields in use. -/
structure State where
  nReq : Nat := 0
  cacheSize : Nat
  ain : FIFO.State
  aout : FIFO.State
  am : LRU.State
  hitOnGhost : Bool := false
  /-- `Ain_cache_size` -/
  ainSize : Nat

/-- `TwoQ_init`, TwoQ.c:71-116. -/
def init (cacheSize ainSize aoutSize amMd : Nat) : State :=
  { cacheSize := cacheSize
    ain := FIFO.init ainSize 0 .none
    aout := FIFO.init aoutSize 0 .none
    am := LRU.init (cacheSize - ainSize) amMd .none
    ainSize := ainSize }

/-- `TwoQ_find`, TwoQ.c:173-205. -/
def find (s : State) (r : Req) (update : Bool) : Res (Bool × State) :=
  FIFO.algo.find s.ain r false >>= fun p =>
  if update then
    if p.1 then .ok (true, { s with hitOnGhost := false })
    else
      FIFO.algo.remove s.aout r.id >>= fun g =>
      LRU.algo.find s.am r true >>= fun m => .ok (m.1, { s with hitOnGhost := g.1, aout := g.2, am := m.2 })
  else if p.1 then .ok (true, s)
  else LRU.algo.find s.am r false >>= fun m => .ok (m.1, { s with am := m.2 })

/-- `TwoQ_insert`, TwoQ.c:218-231. -/
def insert (s : State) (r : Req) : Res State :=
  if s.hitOnGhost then
    LRU.algo.get s.am r >>= fun m => .ok { s with hitOnGhost := false, am := m.2 }
  else FIFO.algo.insert s.ain r >>= fun a => .ok { s with ain := a }

/-- `TwoQ_evict`, TwoQ.c:257-277. -/
def evict (s : State) (r : Req) : Res State :=
  if s.ain.base.occ > (s.ainSize : Int) then
    s.ain.tailObj >>= fun o =>
    FIFO.algo.get s.aout o.toReq >>= fun g =>
    FIFO.algo.evict s.ain r >>= fun a => .ok { s with aout := g.2, ain := a }
  else LRU.algo.evict s.am r >>= fun m => .ok { s with am := m }

/-- `TwoQ_remove`, TwoQ.c:292-300: the first queue that has the object. -/
def remove (s : State) (id : ObjId) : Res (Bool × State) :=
  FIFO.algo.remove s.ain id >>= fun p =>
  if p.1 then .ok (true, { s with ain := p.2 })
  else
    FIFO.algo.remove s.aout id >>= fun g =>
    if g.1 then .ok (true, { s with ain := p.2, aout := g.2 })
    else LRU.algo.remove s.am id >>= fun m => .ok (m.1, { s with ain := p.2, aout := g.2, am := m.2 })

/-- `TwoQ_can_insert`, TwoQ.c:314-318. -/
def canInsert (s : State) (r : Req) : Bool × State := (decide (r.size ≤ s.ain.base.cacheSize), s)

/-- The function table, TwoQ.c:73-86. -/
def algo : Algo State where
  find := find
  insert := insert
  evict := evict
  remove := remove
  canInsert := canInsert
  occ := fun s => s.ain.base.occ + s.am.base.occ
  nObj := fun s => s.ain.base.nObj + s.am.base.nObj
  cacheSize := fun s => s.cacheSize
  md := fun _ => 0
  bump := fun s => { s with nReq := s.nReq + 1 }
  fuel := fun s => s.ain.base.tbl.length + s.am.base.tbl.length

end Verif.TwoQ
