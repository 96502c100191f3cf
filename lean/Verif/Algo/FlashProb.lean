import Verif.Algo.LRU
import Verif.Algo.Clock
import Verif.Algo.FIFO
/-!
# libCacheSim/cache/eviction/other/flashProb.c

A RAM cache in front of a disk cache; an object evicted from the RAM is written to the disk with a fixed probability.  The RAM cache is LRU (the
default) or FIFO here; flashProb.c:100-128 also offers ARC, LHD, Clock, LeCaR, Cacheus, 2Q, LIRS and Hyperbolic.  The disk cache is any other cache
(`D`); flashProb.c:131-137 offers FIFO (the default) and Clock.

Simplifications: the sizes are parameters (the C code multiplies the cache size with a floating-point ratio, flashProb.c:94-96) and so is `inv_prob`
(line 386).  `picks` holds the values of the successive calls of `next_rand()`.  The statistics `n_obj_admit_*`, `n_byte_admit_*` are not kept, but line
306 reads the size of the object that line 301 has just freed: `strict` says that reading freed memory is an error; otherwise the read is harmless.
The parts count no metadata bytes (`consider_obj_metadata` is off).
-/

namespace Verif.FlashProb
open Verif

/-- `flashProb_params_t`, flashProb.c:20-36, next to the `cache_t` part (whose own table and counters stay empty). -/
structure State (τ : Type) where
  base : Base Unit
  ram : QState Unit
  disk : τ
  /-- is the RAM cache an LRU cache? -/
  lru : Bool
  /-- `inv_prob` -/
  invProb : Nat
  picks : List Nat
  strict : Bool

section
variable {τ : Type}

/-- `flashProb_init`, flashProb.c:68-146; `disk` is the freshly initialised disk cache. -/
def init (disk : τ) (cacheSize ramSize : Nat) (adm : Adm) (lru : Bool) (invProb : Nat) (picks : List Nat) (strict : Bool) : State τ :=
  { base := Base.init cacheSize 0 adm, ram := QState.init ramSize 0 .none, disk := disk, lru := lru, invProb := invProb, picks := picks, strict := strict }

/-- `ram->find`: `LRU_find` (LRU.c:130-143) or `FIFO_find` (FIFO.c:122-125). -/
def ramFind (s : State τ) (r : Req) (update : Bool) : Res (Option (Obj Unit) × QState Unit) :=
  if s.lru then s.ram.findLRU r update else .ok (s.ram.findFIFO r update)

/-- `flashProb_find`, flashProb.c:203-228. -/
def find (D : Algo τ) (s : State τ) (r : Req) (update : Bool) : Res (Bool × State τ) :=
  ramFind s r update >>= fun p =>
  match p with
  | (some _, m) => .ok (true, { s with ram := m })
  | (none, m) => D.find s.disk r update >>= fun d => .ok (d.1, { s with ram := m, disk := d.2 })

/-- `flashProb_insert`, flashProb.c:241-254. -/
def insert (s : State τ) (r : Req) : Res (State τ) := s.ram.insert () r >>= fun m => .ok { s with ram := m }

/-- `flashProb_evict`, flashProb.c:280-310. -/
def evict (D : Algo τ) (s : State τ) (r : Req) : Res (State τ) :=
  if s.ram.base.occ = 0 then
    if D.occ s.disk ≤ s.base.cacheSize then D.evict s.disk r >>= fun d => .ok { s with disk := d } else .error .assertFail
  else
    s.ram.tailObj >>= fun o =>
    s.ram.remove o.id >>= fun m =>
    if s.invProb = 0 then .error .divZero
    else if s.picks.headD 0 % s.invProb = 0 then
      if s.strict then .error .useAfterFree
      else D.get s.disk o.toReq >>= fun d => .ok { s with ram := m.2, disk := d.2, picks := s.picks.tail }
    else .ok { s with ram := m.2, picks := s.picks.tail }

/-- `flashProb_remove`, flashProb.c:325-332. -/
def remove (D : Algo τ) (s : State τ) (id : ObjId) : Res (Bool × State τ) :=
  s.ram.remove id >>= fun m =>
  if m.1 then .ok (true, { s with ram := m.2 })
  else D.remove s.disk id >>= fun d => .ok (d.1, { s with ram := m.2, disk := d.2 })

/-- The function table, flashProb.c:70-82 (`can_insert` is the default one); `get_occupied_byte` and `get_n_obj` are lines 334-344. -/
def algo (D : Algo τ) : Algo (State τ) where
  find := find D
  insert := insert
  evict := evict D
  remove := remove D
  canInsert := fun s r => ((s.base.canInsertDefault r).1, { s with base := (s.base.canInsertDefault r).2 })
  occ := fun s => s.ram.base.occ + D.occ s.disk
  nObj := fun s => s.ram.base.nObj + D.nObj s.disk
  cacheSize := fun s => s.base.cacheSize
  md := fun s => s.base.objMd
  bump := fun s => { s with base := s.base.bump }
  fuel := fun s => 2 * s.ram.base.tbl.length + (D.nObj s.disk).toNat

end

/-- "disk-cache=FIFO", the default, flashProb.c:131-132 -/
def onFIFO : Algo (State FIFO.State) := algo FIFO.algo
/-- "disk-cache=clock", flashProb.c:133-134 -/
def onClock : Algo (State Clock.State) := algo Clock.algo

/-- flashProb.c:130-132 -/
def initFIFO (cs ram : Nat) (adm : Adm) (lru : Bool) (n : Nat) (picks : List Nat) (strict : Bool) : State FIFO.State :=
  init (FIFO.init (cs - ram) 0 .none) cs ram adm lru n picks strict
/-- flashProb.c:130-134; `Clock_init` without parameters uses a one-bit counter. -/
def initClock (cs ram : Nat) (adm : Adm) (lru : Bool) (n : Nat) (picks : List Nat) (strict : Bool) : State Clock.State :=
  init (Clock.init (cs - ram) 0 1 .none) cs ram adm lru n picks strict

end Verif.FlashProb
