import Verif.Algo.LRU
import Verif.Algo.FIFO
import Verif.Algo.SLRU
import Verif.Data.CBF
/-!
# libCacheSim/cache/eviction/WTinyLFU.c

A small LRU window in front of a main cache; an object that leaves the window enters the main cache when a counting sketch estimates it to be
more frequent than the object the main cache would evict.  The main cache is any other cache (`M`, with its `to_evict` as `peek`); WTinyLFU.c:119-145 offers
SLRU (the default), LRU, LFU, FIFO, FIFO-Reinsertion, ARC, Clock, LeCaR, Cacheus, Hyperbolic, LHD and Sieve.

Simplifications: the size of the window is a parameter (the C code multiplies the cache size with a floating-point ratio, lines 114-117), and so are the dimensions of the
sketch (minimalIncrementCBF.c:27-67 computes them in floating point) and its hash functions `H`.  The statistic `n_admit_bytes` is not kept.
-/

namespace Verif.WTinyLFU
open Verif

/-- `WTinyLFU_params_t`, WTinyLFU.c:31-42, next to the `cache_t` part (whose own table and counters stay empty). -/
structure State (τ : Type) where
  base : Base Unit
  /-- `LRU`, the window -/
  win : QState Unit
  /-- `main_cache` -/
  main : τ
  /-- `CBF` -/
  sk : CBF.Sketch
  /-- `request_counter` -/
  counter : Nat
  /-- `max_request_num` -/
  maxReq : Nat

section
variable {τ : Type}

/-- `WTinyLFU_init` without `consider_obj_metadata`, WTinyLFU.c:96-179; `main` is the freshly initialised main cache of `mainSize` bytes. -/
def start (main : τ) (cacheSize mainSize : Nat) (adm : Adm) (num hashes : Nat) : State τ :=
  { base := Base.init cacheSize 0 adm, win := QState.init (cacheSize - mainSize) 0 .none, main := main, sk := CBF.init num hashes, counter := 0, maxReq := 32 * mainSize }

/-- `WTinyLFU_init`, WTinyLFU.c:80-180.  With `consider_obj_metadata` line 101 follows `params->main_cache`, which nothing has written yet. -/
def init (main : τ) (considerMd : Bool) (cacheSize mainSize : Nat) (adm : Adm) (num hashes : Nat) : Res (State τ) :=
  if considerMd then .error .uninit else .ok (start main cacheSize mainSize adm num hashes)

variable (H : CBF.Hashes ObjId) (M : Algo τ) (peek : τ → Option ObjId)

/-- `minimalIncrementCBF_add(params->CBF, &obj_id, sizeof(obj_id_t))`, WTinyLFU.c:226, 244, 326; the result is ignored. -/
def note (s : State τ) (id : ObjId) : Res (State τ) := CBF.add H s.sk id >>= fun p => .ok { s with sk := p.2 }

/-- The frequency update of `WTinyLFU_find`, WTinyLFU.c:226-232. -/
def noteHit (s : State τ) (id : ObjId) : Res (State τ) :=
  note H s id >>= fun s =>
  if s.counter + 1 ≥ s.maxReq then .ok { s with counter := 0, sk := (CBF.decay s.sk).2 }
  else .ok { s with counter := s.counter + 1 }

/-- `WTinyLFU_find`, WTinyLFU.c:208-236: both parts are always asked. -/
def find (s : State τ) (r : Req) (update : Bool) : Res (Bool × State τ) :=
  s.win.findLRU r update >>= fun w =>
  M.find s.main r update >>= fun m =>
  if update && m.1 then noteHit H { s with win := w.2, main := m.2 } r.id >>= fun s => .ok (w.1.isSome || m.1, s)
  else .ok (w.1.isSome || m.1, { s with win := w.2, main := m.2 })

/-- `WTinyLFU_insert`, WTinyLFU.c:238-251. -/
def insert (s : State τ) (r : Req) : Res (State τ) :=
  s.win.insert () r >>= fun w => note H { s with win := w } r.id

/-- The loop of `WTinyLFU_evict`, WTinyLFU.c:266-332.  The fuel bounds the number of rounds; running out of it is `diverge`. -/
def evictRounds (r : Req) : Nat → State τ → Res (State τ)
  | 0, _ => .error .diverge
  | n + 1, s =>
    if s.win.base.occ > 0 then
      s.win.tailObj >>= fun o =>
      if M.occ s.main + o.toReq.size + s.base.objMd ≤ M.cacheSize s.main then
        M.insert s.main o.toReq >>= fun m =>
        s.win.remove o.id >>= fun w =>
        note H { s with win := w.2, main := m } o.id >>= fun s => evictRounds r n s
      else
        match peek s.main with
        | none => .error .nullDeref
        | some v =>
          CBF.estimate H s.sk o.id >>= fun a =>
          CBF.estimate H s.sk v >>= fun b =>
          if a.1 > b.1 then
            M.evict s.main r >>= fun m =>
            s.win.remove o.id >>= fun w =>
            M.insert m o.toReq >>= fun m =>
            note H { s with win := w.2, main := m } o.id >>= fun s => evictRounds r n s
          else
            s.win.evictTail >>= fun w => note H { s with win := w } o.id
    else M.evict s.main r >>= fun m => .ok { s with main := m }

/-- `WTinyLFU_evict`, WTinyLFU.c:259-333: every round but the last takes an object out of the window. -/
def evict (s : State τ) (r : Req) : Res (State τ) := evictRounds H M peek r (s.win.base.tbl.length + 1) s

/-- `WTinyLFU_remove`, WTinyLFU.c:335-344. -/
def remove (s : State τ) (id : ObjId) : Res (Bool × State τ) :=
  s.win.remove id >>= fun w =>
  if w.1 then .ok (true, { s with win := w.2 })
  else M.remove s.main id >>= fun m => .ok (m.1, { s with win := w.2, main := m.2 })

/-- `WTinyLFU_can_insert`, WTinyLFU.c:381-388: the main cache is asked only if the other two conditions hold. -/
def canInsert (s : State τ) (r : Req) : Bool × State τ :=
  let p := s.base.canInsertDefault r
  if p.1 && decide (r.size + s.base.objMd ≤ s.win.base.cacheSize) then
    ((M.canInsert s.main r).1, { s with base := p.2, main := (M.canInsert s.main r).2 })
  else (false, { s with base := p.2 })

/-- The function table, WTinyLFU.c:84-94; `get_occupied_byte` and `get_n_obj` are lines 390-407. -/
def algo : Algo (State τ) where
  find := find H M
  insert := insert H
  evict := evict H M peek
  remove := remove M
  canInsert := canInsert M
  occ := fun s => s.win.base.occ + M.occ s.main
  nObj := fun s => s.win.base.nObj + M.nObj s.main
  cacheSize := fun s => s.base.cacheSize
  md := fun s => s.base.objMd
  bump := fun s => { s with base := s.base.bump }
  fuel := fun s => s.win.base.tbl.length + (M.nObj s.main).toNat

end

variable (H : CBF.Hashes ObjId)

/-- "main-cache=LRU", WTinyLFU.c:119-120 -/
def onLRU : Algo (State LRU.State) := algo H LRU.algo LRU.toEvict
/-- "main-cache=FIFO", WTinyLFU.c:125-126 -/
def onFIFO : Algo (State FIFO.State) := algo H FIFO.algo FIFO.toEvict
/-- "main-cache=SLRU", the default, WTinyLFU.c:121-122 -/
def onSLRU : Algo (State SLRU.State) := algo H SLRU.algo SLRU.toEvict

/-- WTinyLFU.c:119-120 -/
def initLRU (cs ms : Nat) (adm : Adm) (num hs : Nat) : State LRU.State := start (LRU.init ms 0 .none) cs ms adm num hs
/-- WTinyLFU.c:125-126 -/
def initFIFO (cs ms : Nat) (adm : Adm) (num hs : Nat) : State FIFO.State := start (FIFO.init ms 0 .none) cs ms adm num hs
/-- WTinyLFU.c:121-122: two segments in the ratio 1:4, here any number of segments `n` with any limits `lim`. -/
def initSLRU (cs ms n : Nat) (lim : Nat → Nat) (adm : Adm) (num hs : Nat) : State SLRU.State := start (SLRU.init ms 0 .none n lim) cs ms adm num hs

end Verif.WTinyLFU
