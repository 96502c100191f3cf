import Verif.Algo.QDLP
/-!
# libCacheSim/cache/eviction/S3FIFOd.c

A small FIFO cache, a main cache and a ghost queue whose sizes are adapted while the cache runs: two further FIFO caches remember what left each part last,
and the part whose recent victims are requested again more often grows.

The main cache is any cache that can say beforehand whom it will evict (`Part`).  S3FIFOd.c:118-146 offers FIFO, Clock with 1, 2 or 3 bits, Sieve, LRU,
ARC, LHD, LeCaR, Cacheus, 2Q, LIRS and Hyperbolic; FIFO, Clock, Sieve and LRU are modelled.

Simplifications: the initial size of the small cache is a parameter (the C code multiplies the cache size with a floating-point ratio, S3FIFOd.c:103-106).
`(int)(n * 0.8)` is `n * 4 / 5`.  The hit counters and `step` do not overflow.  `S3FIFOd_can_insert` never asks the admission policy, so none is modelled.
The parts count no metadata bytes.  `TRACK_EVICTION_V_AGE` is off (the default).  Then `S3FIFOd_evict` reads `obj->misc.freq` of an object
it has just freed (line 460): `stale` says what such reads see, and `strict` makes them a fault.
-/

namespace Verif.S3FIFOd
open Verif

/-- What S3FIFOd needs of its main cache. -/
structure Part (τ : Type) where
  algo : Algo τ
  /-- `to_evict` followed by `copy_cache_obj_to_request` (S3FIFOd.c:410-415, 466-467); `none`: NULL is dereferenced -/
  victim : τ → Option Req
  /-- `obj->misc.freq == 0` -/
  zero : τ → ObjId → Bool
  /-- assignment to `cache_size` -/
  resize : τ → Nat → τ

/-- `S3FIFOd_params_t`, S3FIFOd.c:27-43, and the `cache_t` fields in use. -/
structure State (τ : Type) where
  nReq : Nat := 0
  cacheSize : Nat
  fifo : FIFO.State
  /-- `fifo_ghost`; its `cache_size` is `ghostSize` -/
  ghost : FIFO.State
  /-- `fifo_ghost->cache_size`, which can become negative -/
  ghostSize : Int
  main : τ
  hitOnGhost : Bool := false
  /-- `move_to_main_threshold` -/
  threshold : Int
  /-- `fifo_eviction` -/
  fifoEv : FIFO.State
  /-- `main_cache_eviction` -/
  mainEv : FIFO.State
  /-- `fifo_eviction_hit` -/
  fifoHit : Nat := 0
  /-- `main_eviction_hit` -/
  mainHit : Nat := 0
  /-- what the next reads of freed memory see: `none` the old value, `some v` the value `v`; the old value when the list is used up -/
  stale : List (Option Int) := []
  /-- reads of freed memory are faults -/
  strict : Bool := false

section
variable {τ : Type}

/-- `S3FIFOd_init`, S3FIFOd.c:77-169; `main` is the freshly initialised main cache of size `cacheSize - fifoSize`. -/
def init (main : τ) (cacheSize fifoSize : Nat) (threshold : Int) (stale : List (Option Int)) (strict : Bool) : State τ :=
  { cacheSize := cacheSize
    fifo := FIFO.init fifoSize 0 .none
    ghost := FIFO.init (cacheSize - fifoSize) 0 .none
    ghostSize := (cacheSize : Int) - fifoSize
    main := main
    threshold := threshold
    fifoEv := FIFO.init (cacheSize / 10) 0 .none
    mainEv := FIFO.init (cacheSize / 10) 0 .none
    stale := stale
    strict := strict }

/-- assignment to `cache_size` of a FIFO cache -/
def resizeQ {μ : Type} (q : QState μ) (n : Nat) : QState μ := { q with base := { q.base with cacheSize := n } }

/-- `step`, S3FIFOd.c:189-191. -/
def stepOf (f m : Nat) : Nat := max 1 (min f m / 1000)

/-- The sizes after a step, S3FIFOd.c:201-215: of the small cache, the ghost queue and the main cache. -/
def sizes (cs f : Nat) (g : Int) (m fifoHit mainHit : Nat) : Nat × Int × Nat :=
  if fifoHit > mainHit * 2 then
    if m > cs / 100 then (f + stepOf f m, g + (stepOf f m : Nat), m - stepOf f m) else (f, g, m)
  else if mainHit > fifoHit * 2 then
    if f > cs / 100 then (f - stepOf f m, g - (stepOf f m : Nat), m + stepOf f m) else (f, g, m)
  else (f, g, m)

/-- assignment to the three sizes -/
def setSizes (P : Part τ) (s : State τ) (x : Nat × Int × Nat) : State τ :=
  { s with fifo := resizeQ s.fifo x.1, ghost := resizeQ s.ghost x.2.1.toNat, ghostSize := x.2.1, main := P.resize s.main x.2.2 }

/-- `S3FIFOd_update_fifo_size`, S3FIFOd.c:186-219. -/
def adapt (P : Part τ) (s : State τ) : State τ :=
  if s.mainEv.base.occ > 0 then
    if s.fifoHit + s.mainHit > 100 then
      { setSizes P s (sizes s.cacheSize s.fifo.base.cacheSize s.ghostSize (P.algo.cacheSize s.main) s.fifoHit s.mainHit) with
        fifoHit := s.fifoHit * 4 / 5, mainHit := s.mainHit * 4 / 5 }
    else s
  else { s with fifoHit := 0, mainHit := 0 }

/-- `find` followed by `remove` if the object is there, S3FIFOd.c:327-330 and 332-337 (`find` with update only writes fields that `remove` drops):
the answer, and the queue without the object. -/
def forget (q : FIFO.State) (r : Req) (update : Bool) : Res (Bool × FIFO.State) :=
  match q.findFIFO r update with
  | (some _, q') => q'.remove r.id >>= fun p => .ok (true, p.2)
  | (none, q') => .ok (false, q')

/-- `S3FIFOd_find` with `update_cache`, S3FIFOd.c:314-339. -/
def findUpdate (P : Part τ) (s : State τ) (r : Req) : Res (Bool × State τ) :=
  match s.fifo.findFIFO r true with
  | (some _, f) => .ok (true, { s with hitOnGhost := false, fifo := f })
  | (none, f) =>
    FIFO.algo.remove s.ghost r.id >>= fun g =>
    P.algo.find s.main r true >>= fun m =>
    forget s.fifoEv r false >>= fun a =>
    forget s.mainEv r true >>= fun b =>
    .ok (m.1, { s with hitOnGhost := g.1, fifo := f, ghost := g.2, main := m.2, fifoEv := a.2, mainEv := b.2,
                       fifoHit := if a.1 then s.fifoHit + 1 else s.fifoHit, mainHit := if b.1 then s.mainHit + 1 else s.mainHit })

/-- `S3FIFOd_find`, S3FIFOd.c:297-340; without `update_cache` lines 302-312. -/
def find (P : Part τ) (s : State τ) (r : Req) (update : Bool) : Res (Bool × State τ) :=
  if update then findUpdate P s r
  else
    match s.fifo.findFIFO r false with
    | (some _, _) => .ok (true, s)
    | (none, _) => P.algo.find s.main r false >>= fun m => .ok (m.1, { s with main := m.2 })

/-- `S3FIFOd_insert`, S3FIFOd.c:353-374, with the assertion that `misc.freq` is 0 (line 367; it dereferences the pointer). -/
def insert (P : Part τ) (s : State τ) (r : Req) : Res (State τ) :=
  if s.hitOnGhost then
    P.algo.get s.main r >>= fun g =>
    P.algo.find g.2 r false >>= fun m =>
    if m.1 then
      if P.zero m.2 r.id then .ok { s with hitOnGhost := false, main := m.2 } else .error .assertFail
    else .error .nullDeref
  else
    s.fifo.insert () r >>= fun f =>
    if QDLP.zeroFreq f.base r.id then .ok { s with fifo := f } else .error .assertFail

/-- `main->to_evict`, remember the victim in `main_cache_eviction`, `main->evict`; S3FIFOd.c:410-417 and 466-470. -/
def evictMain (P : Part τ) (s : State τ) (r : Req) : Res (State τ) :=
  match P.victim s.main with
  | none => .error .nullDeref
  | some v =>
    FIFO.algo.get s.mainEv v >>= fun e =>
    P.algo.evict s.main r >>= fun m => .ok { s with mainEv := e.2, main := m }

/-- `while (main->get_occupied_byte(main) > main->cache_size)`, S3FIFOd.c:464-471; `n` bounds the iterations. -/
def shrinkMain (P : Part τ) (r : Req) : Nat → State τ → Res (State τ)
  | 0, s => if P.algo.occ s.main > (P.algo.cacheSize s.main : Int) then .error .diverge else .ok s
  | n + 1, s =>
    if P.algo.occ s.main > (P.algo.cacheSize s.main : Int) then evictMain P s r >>= fun s' => shrinkMain P r n s' else .ok s

/-- `ghost->get(ghost, req_local)`, S3FIFOd.c:474.  A queue of negative size takes nothing in (`cache_can_insert_default`, cache.c:153). -/
def ghostGet (s : State τ) (r : Req) : Res FIFO.State :=
  if s.ghostSize < 0 then FIFO.algo.find (FIFO.algo.bump s.ghost) r true >>= fun p => .ok p.2
  else FIFO.algo.get s.ghost r >>= fun p => .ok p.2

/-- `removed = fifo->remove(...); assert(removed)`, S3FIFOd.c:457-458. -/
def removeAsserted (q : FIFO.State) (id : ObjId) : Res FIFO.State :=
  q.remove id >>= fun p => if p.1 then .ok p.2 else .error .assertFail

/-- what a read of `misc.freq` of a freed object sees -/
def staleRead (s : State τ) (o : Obj Unit) : Int := s.stale.head?.join.getD o.miscFreq

/-- `S3FIFOd_evict`, S3FIFOd.c:400-478, without `TRACK_EVICTION_V_AGE`. -/
def evict (P : Part τ) (s : State τ) (r : Req) : Res (State τ) :=
  if s.fifo.base.occ = 0 then
    if P.algo.occ s.main ≤ s.cacheSize then evictMain P s r else .error .assertFail
  else
    s.fifo.tailObj >>= fun o =>
    removeAsserted s.fifo o.id >>= fun f =>
    if s.strict then .error .useAfterFree
    else if staleRead s o ≥ s.threshold then
      P.algo.insert s.main o.toReq >>= fun m =>
      shrinkMain P r (P.algo.fuel m) { s with fifo := f, main := m, stale := s.stale.tail }
    else
      ghostGet s o.toReq >>= fun g =>
      FIFO.algo.get s.fifoEv o.toReq >>= fun e => .ok { s with fifo := f, ghost := g, fifoEv := e.2, stale := s.stale.tail }

/-- `S3FIFOd_remove`, S3FIFOd.c:493-501: the first part that has the object. -/
def remove (P : Part τ) (s : State τ) (id : ObjId) : Res (Bool × State τ) :=
  s.fifo.remove id >>= fun p =>
  if p.1 then .ok (true, { s with fifo := p.2 })
  else
    FIFO.algo.remove s.ghost id >>= fun g =>
    if g.1 then .ok (true, { s with fifo := p.2, ghost := g.2 })
    else P.algo.remove s.main id >>= fun m => .ok (m.1, { s with fifo := p.2, ghost := g.2, main := m.2 })

/-- `S3FIFOd_can_insert`, S3FIFOd.c:515-519. -/
def canInsert (s : State τ) (r : Req) : Bool × State τ := (decide (r.size ≤ s.fifo.base.cacheSize), s)

/-- The function table, S3FIFOd.c:80-91; `get_occupied_byte` and `get_n_obj` are lines 503-513.  `S3FIFOd_get` (lines 255-280) adapts the sizes and then
runs `cache_get_base`, whose first statement counts the request: both are `bump` here. -/
def algo (P : Part τ) : Algo (State τ) where
  find := find P
  insert := insert P
  evict := evict P
  remove := remove P
  canInsert := canInsert
  occ := fun s => s.fifo.base.occ + P.algo.occ s.main
  nObj := fun s => s.fifo.base.nObj + P.algo.nObj s.main
  cacheSize := fun s => s.cacheSize
  md := fun _ => 0
  bump := fun s => { adapt P s with nReq := s.nReq + 1 }
  fuel := fun s => 2 * s.fifo.base.tbl.length + (P.algo.nObj s.main).toNat

end

/-- `to_evict` of a cache that keeps its objects in one table, and the request made of the object it names -/
def named {μ : Type} (b : Base μ) (id : Option ObjId) : Option Req := id.bind fun i => (b.lookup i).map Obj.toReq

/-- main cache "FIFO", S3FIFOd.c:118-119 -/
def onFIFO : Part FIFO.State := ⟨FIFO.algo, fun s => named s.base (FIFO.toEvict s), fun s => QDLP.zeroFreq s.base, resizeQ⟩
/-- "LRU", S3FIFOd.c:128-129 -/
def onLRU : Part LRU.State := ⟨LRU.algo, fun s => named s.base (LRU.toEvict s), fun s => QDLP.zeroFreq s.base, resizeQ⟩
/-- "clock", "clock2" (the default) and "clock3", S3FIFOd.c:120-125 -/
def onClock : Part Clock.State :=
  ⟨Clock.algo, fun s => named s.base (Clock.toEvict s), fun s => QDLP.zeroFreq s.base, fun s n => { s with base := { s.base with cacheSize := n } }⟩
/-- "sieve", S3FIFOd.c:126-127 -/
def onSieve : Part Sieve.State :=
  ⟨Sieve.algo, fun s => named s.base (Sieve.toEvict s), fun s => QDLP.zeroFreq s.base, fun s n => { s with base := { s.base with cacheSize := n } }⟩

/-- S3FIFOd.c:118-119 -/
def initFIFO (cs fs : Nat) (thr : Int) (stale : List (Option Int)) (strict : Bool) : State FIFO.State := init (FIFO.init (cs - fs) 0 .none) cs fs thr stale strict
/-- S3FIFOd.c:128-129 -/
def initLRU (cs fs : Nat) (thr : Int) (stale : List (Option Int)) (strict : Bool) : State LRU.State := init (LRU.init (cs - fs) 0 .none) cs fs thr stale strict
/-- S3FIFOd.c:120-125; `mf` is 1 for "clock", 3 for "clock2", 7 for "clock3" -/
def initClock (mf cs fs : Nat) (thr : Int) (stale : List (Option Int)) (strict : Bool) : State Clock.State := init (Clock.init (cs - fs) 0 mf .none) cs fs thr stale strict
/-- S3FIFOd.c:126-127 -/
def initSieve (cs fs : Nat) (thr : Int) (stale : List (Option Int)) (strict : Bool) : State Sieve.State := init (Sieve.init (cs - fs) 0 .none) cs fs thr stale strict

end Verif.S3FIFOd
