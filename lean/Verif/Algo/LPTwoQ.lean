import Verif.Algo.FIFO
import Verif.Algo.Clock
/-!
# libCacheSim/cache/eviction/fifo/LP_TwoQ.c

A composite of the FIFO queue Ain, the FIFO queue Aout of evicted objects, and the CLOCK cache Am ("lazy promotion").

Simplifications: the sizes of Ain and Aout are parameters (the C code multiplies the cache size with floating-point ratios, LP_TwoQ.c:103-105).  None of
the three caches charges metadata (`obj_md_size` is 0 for FIFO and Clock, FIFO.c:63 and Clock.c:69), and Am is created with Clock's default of one
bit per object (Clock.c:79-80).  `LP_TwoQ_can_insert` never asks the admission policy, so none is modelled; the inner caches have none.
-/

namespace Verif.LPTwoQ
open Verif

/-- `LP_TwoQ_params_t`, LP_TwoQ.c:22-36, and the `cache_t` fields in use. -/
structure State where
  nReq : Nat := 0
  cacheSize : Nat
  ain : FIFO.State
  aout : FIFO.State
  am : Clock.State
  hitOnGhost : Bool := false
  /-- `Ain_cache_size` -/
  ainSize : Nat

/-- `LP_TwoQ_init`, LP_TwoQ.c:75-121. -/
def init (cacheSize ainSize aoutSize : Nat) : State :=
  { cacheSize := cacheSize
    ain := FIFO.init ainSize 0 .none
    aout := FIFO.init aoutSize 0 .none
    am := Clock.init (cacheSize - ainSize) 0 1 .none
    ainSize := ainSize }

/-- `LP_TwoQ_find`, LP_TwoQ.c:181-213. -/
def find (s : State) (r : Req) (update : Bool) : Res (Bool × State) :=
  FIFO.algo.find s.ain r false >>= fun p =>
  if update then
    if p.1 then .ok (true, { s with hitOnGhost := false })
    else
      FIFO.algo.remove s.aout r.id >>= fun g =>
      Clock.algo.find s.am r true >>= fun m => .ok (m.1, { s with hitOnGhost := g.1, aout := g.2, am := m.2 })
  else if p.1 then .ok (true, s)
  else Clock.algo.find s.am r false >>= fun m => .ok (m.1, { s with am := m.2 })

/-- `LP_TwoQ_insert`, LP_TwoQ.c:226-239. -/
def insert (s : State) (r : Req) : Res State :=
  if s.hitOnGhost then
    Clock.algo.get s.am r >>= fun m => .ok { s with hitOnGhost := false, am := m.2 }
  else FIFO.algo.insert s.ain r >>= fun a => .ok { s with ain := a }

/-- `LP_TwoQ_evict`, LP_TwoQ.c:265-290. -/
def evict (s : State) (r : Req) : Res State :=
  if s.ain.base.occ > (s.ainSize : Int) then
    s.ain.tailObj >>= fun o =>
    FIFO.algo.get s.aout o.toReq >>= fun g =>
    FIFO.algo.evict s.ain r >>= fun a => .ok { s with aout := g.2, ain := a }
  else Clock.algo.evict s.am r >>= fun m => .ok { s with am := m }

/-- `LP_TwoQ_remove`, LP_TwoQ.c:305-313: the first queue that has the object. -/
def remove (s : State) (id : ObjId) : Res (Bool × State) :=
  FIFO.algo.remove s.ain id >>= fun p =>
  if p.1 then .ok (true, { s with ain := p.2 })
  else
    FIFO.algo.remove s.aout id >>= fun g =>
    if g.1 then .ok (true, { s with ain := p.2, aout := g.2 })
    else Clock.algo.remove s.am id >>= fun m => .ok (m.1, { s with ain := p.2, aout := g.2, am := m.2 })

/-- `LP_TwoQ_can_insert`, LP_TwoQ.c:327-331. -/
def canInsert (s : State) (r : Req) : Bool × State := (decide (r.size ≤ s.ain.base.cacheSize), s)

/-- The function table, LP_TwoQ.c:78-90, and its counters, LP_TwoQ.c:315-325. -/
def algo : Algo State where
  find := find
  insert := insert
  evict := evict
  remove := remove
  canInsert := canInsert
  occ := fun s => s.ain.base.occ + s.am.base.occ
  nObj := fun s => s.ain.base.nObj + s.am.base.nObj
  cacheSize := fun s => s.cacheSize
  md := fun _ => 0
  bump := fun s => { s with nReq := s.nReq + 1 }
  fuel := fun s => s.ain.base.tbl.length + s.am.base.tbl.length

end Verif.LPTwoQ
