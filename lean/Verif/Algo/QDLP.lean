import Verif.Algo.Ghost
import Verif.Algo.LRU
import Verif.Algo.Clock
import Verif.Algo.Sieve
/-!
# libCacheSim/cache/eviction/QDLP.c

A small FIFO cache in front of a main cache, with a ghost queue.  The main cache is any other cache (`M`): QDLP.c:121-152 offers ARC, LHD, Clock,
Sieve, LRU, LeCaR, Cacheus, 2Q, FIFO, SLRU, LIRS and Hyperbolic.

Simplifications: the sizes are parameters (the C code multiplies the cache size with floating-point ratios, QDLP.c:98-102); the statistics counters
`n_obj_*`, `n_byte_*` are not kept.  `QDLP_can_insert` never asks the admission policy, so none is modelled.  The parts count no metadata bytes (`consider_obj_metadata`
is off).  `TRACK_EVICTION_V_AGE` is off.
-/

namespace Verif.QDLP
open Verif

/-- `QDLP_params_t`, QDLP.c:22-41, and the `cache_t` fields in use. -/
structure State (τ : Type) where
  nReq : Nat := 0
  cacheSize : Nat
  fifo : FIFO.State
  main : τ
  /-- `fifo_ghost`, NULL when its size is 0 -/
  ghost : Option FIFO.State
  hitOnGhost : Bool := false
  /-- `move_to_main_threshold` -/
  threshold : Int

section
variable {τ : Type}

/-- `QDLP_init`, QDLP.c:74-171; `main` is the freshly initialised main cache of size `cacheSize - fifoSize`. -/
def init (main : τ) (cacheSize fifoSize ghostSize : Nat) (threshold : Int) : State τ :=
  { cacheSize := cacheSize, fifo := FIFO.init fifoSize 0 .none, main := main, ghost := ghostInit ghostSize, threshold := threshold }

/-- `QDLP_find` with `update_cache`, QDLP.c:250-266. -/
def findUpdate (M : Algo τ) (s : State τ) (r : Req) : Res (Bool × State τ) :=
  match s.fifo.findFIFO r true with
  | (some _, f) => .ok (true, { s with hitOnGhost := false, fifo := f })
  | (none, f) =>
    ghostRemove s.ghost r.id >>= fun p =>
    M.find s.main r true >>= fun m =>
    .ok (m.1, { s with hitOnGhost := p.1, fifo := f, ghost := p.2, main := m.2 })

/-- `QDLP_find`, QDLP.c:233-266; without `update_cache` lines 238-248. -/
def find (M : Algo τ) (s : State τ) (r : Req) (update : Bool) : Res (Bool × State τ) :=
  if update then findUpdate M s r
  else
    match s.fifo.findFIFO r false with
    | (some _, _) => .ok (true, s)
    | (none, _) => M.find s.main r false >>= fun m => .ok (m.1, { s with main := m.2 })

/-- `QDLP_insert`, QDLP.c:279-307.  `zero` reads `obj->misc.freq == 0` of an object of the main cache, for the assertion in line 304; an object just
created by `FIFO_insert` has `misc.freq` 0. -/
def insert (M : Algo τ) (zero : τ → ObjId → Bool) (s : State τ) (r : Req) : Res (State τ) :=
  if s.hitOnGhost then
    M.get s.main r >>= fun g =>
    M.find g.2 r false >>= fun m =>
    if m.1 then
      if zero m.2 r.id then .ok { s with hitOnGhost := false, main := m.2 } else .error .assertFail
    else .error .nullDeref
  else if r.size ≥ s.fifo.base.cacheSize then .ok s
  else s.fifo.insert () r >>= fun f => .ok { s with fifo := f }

/-- `QDLP_evict`, QDLP.c:333-381. -/
def evict (M : Algo τ) (s : State τ) (r : Req) : Res (State τ) :=
  if s.fifo.base.occ = 0 then
    if M.occ s.main ≤ s.cacheSize then M.evict s.main r >>= fun m => .ok { s with main := m } else .error .assertFail
  else
    s.fifo.tailObj >>= fun o =>
    if o.miscFreq ≥ s.threshold then
      M.get s.main o.toReq >>= fun m =>
      s.fifo.evictTail >>= fun f => .ok { s with main := m.2, fifo := f }
    else
      ghostGet s.ghost o.toReq >>= fun g =>
      s.fifo.evictTail >>= fun f => .ok { s with ghost := g, fifo := f }

/-- `QDLP_remove`, QDLP.c:396-405: the first part that has the object. -/
def remove (M : Algo τ) (s : State τ) (id : ObjId) : Res (Bool × State τ) :=
  s.fifo.remove id >>= fun p =>
  if p.1 then .ok (true, { s with fifo := p.2 })
  else
    ghostRemove s.ghost id >>= fun g =>
    if g.1 then .ok (true, { s with fifo := p.2, ghost := g.2 })
    else
      M.remove s.main id >>= fun m => .ok (m.1, { s with fifo := p.2, ghost := g.2, main := m.2 })

/-- `QDLP_can_insert`, QDLP.c:419-423. -/
def canInsert (s : State τ) (r : Req) : Bool × State τ := (decide (r.size ≤ s.fifo.base.cacheSize), s)

/-- The function table, QDLP.c:78-88; `get_occupied_byte` and `get_n_obj` are lines 407-417. -/
def algo (M : Algo τ) (zero : τ → ObjId → Bool) : Algo (State τ) where
  find := find M
  insert := insert M zero
  evict := evict M
  remove := remove M
  canInsert := canInsert
  occ := fun s => s.fifo.base.occ + M.occ s.main
  nObj := fun s => s.fifo.base.nObj + M.nObj s.main
  cacheSize := fun s => s.cacheSize
  md := fun _ => 0
  bump := fun s => { s with nReq := s.nReq + 1 }
  fuel := fun s => 2 * s.fifo.base.tbl.length + (M.nObj s.main).toNat

end

/-- `obj->misc.freq == 0` for caches that keep their objects in one table -/
def zeroFreq {μ : Type} (b : Base μ) (id : ObjId) : Bool :=
  match b.lookup id with
  | some o => decide (o.miscFreq = 0)
  | none => false

/-- The main caches modelled: "clock" and, with larger counters, "clock2" (the default) and "clock3"; QDLP.c:126-136. -/
def onClock : Algo (State Clock.State) := algo Clock.algo (fun s id => zeroFreq s.base id)
/-- "sieve", QDLP.c:128-129 -/
def onSieve : Algo (State Sieve.State) := algo Sieve.algo (fun s id => zeroFreq s.base id)
/-- "LRU", QDLP.c:134-135 -/
def onLRU : Algo (State LRU.State) := algo LRU.algo (fun s id => zeroFreq s.base id)
/-- "FIFO", QDLP.c:142-143 -/
def onFIFO : Algo (State FIFO.State) := algo FIFO.algo (fun s id => zeroFreq s.base id)

/-- QDLP.c:119-136; `maxFreq` is 1 for "clock", 3 for "clock2", 7 for "clock3". -/
def initClock (cs fs gs : Nat) (thr : Int) (maxFreq : Nat) : State Clock.State := init (Clock.init (cs - fs) 0 maxFreq .none) cs fs gs thr
/-- QDLP.c:119-129 -/
def initSieve (cs fs gs : Nat) (thr : Int) : State Sieve.State := init (Sieve.init (cs - fs) 0 .none) cs fs gs thr
/-- QDLP.c:119-135 -/
def initLRU (cs fs gs : Nat) (thr : Int) : State LRU.State := init (LRU.init (cs - fs) 0 .none) cs fs gs thr
/-- QDLP.c:119-143 -/
def initFIFO (cs fs gs : Nat) (thr : Int) : State FIFO.State := init (FIFO.init (cs - fs) 0 .none) cs fs gs thr

end Verif.QDLP
