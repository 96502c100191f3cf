import Verif.Algo.S3FIFO
/-!
# libCacheSim/cache/eviction/priv/S3FIFOdv2.c

S3-FIFO with two thresholds that follow the frequencies in the main queue: every 1000th request, if the main queue is more than 90% full, both are set to the smallest power
of two that keeps about a tenth of the objects of the main queue.  To know these frequencies the code counts, in `main_freq_cnt`, the objects of the main queue by the
logarithm of their frequency.

Simplifications: the three sizes are parameters (the C code multiplies the cache size with floating-point ratios, lines 160-164); the floating-point products
`0.9 * cache_size` and `n_main_obj * (1 - 0.1)` are exact, the latter rounded down; `S3FIFO.freq` is a natural number; a negative `move_to_main_threshold` is 0; statistics that
nothing reads (`eviction_freq_cnt`, the values of `small_freq_cnt`, `first_access_cnt_over_age_*`, `n_obj_*`, `n_byte_*`, `main_insert_freq`) are not kept, but
indices into `small_freq_cnt` are checked.  The functions `S3FIFOdv2_rebalance`, `_rebalance0`, `_choose_threshold` and `_update_small_reinsert_threshold` are not called by
anything.  There is no admission policy.
-/

namespace Verif.S3FIFOdv2
open Verif

/-- `S3FIFOdv2_params_t`, S3FIFOdv2.c:36-73, and the `cache_t` fields in use. -/
structure State where
  nReq : Nat := 0
  cacheSize : Nat
  fifo : QState Nat
  main : QState Nat
  /-- `fifo_ghost`, NULL when its size is 0 -/
  ghost : Option FIFO.State
  hitOnGhost : Bool := false
  /-- `move_to_main_threshold` -/
  move : Nat
  /-- `main_reinsert_threshold` -/
  keep : Nat := 1
  /-- `main_freq_cnt` -/
  hist : Nat → Int := fun _ => 0

/-- `S3FIFOdv2_init`, S3FIFOdv2.c:115-194. -/
def init (cacheSize fifoSize ghostSize move : Nat) : State :=
  { cacheSize := cacheSize
    fifo := QState.init fifoSize 0 .none
    main := QState.init (cacheSize - fifoSize) 0 .none
    ghost := ghostInit ghostSize
    move := move }

/-- `main_freq_cnt[log2_ull(f)] += d`; the array has `MAX_FREQ_CNT` = 32 entries, S3FIFOdv2.c:34, :62. -/
def count (h : Nat → Int) (f : Nat) (d : Int) : Res (Nat → Int) :=
  if Nat.log2 f < 32 then .ok (fun j => if j = Nat.log2 f then h j + d else h j) else .error .outOfBounds

/-- `S3FIFOdv2_find` with `update_cache`, S3FIFOdv2.c:545-592. -/
def findUpdate (s : State) (r : Req) : Res (Bool × State) :=
  match s.fifo.findFIFO r true with
  | (some o, f) =>
    if Nat.log2 (o.mt + 1) < 32 then .ok (true, { s with hitOnGhost := false, fifo := f.modify r.id S3FIFO.hit }) else .error .outOfBounds
  | (none, f) =>
    ghostRemove s.ghost r.id >>= fun p =>
    match s.main.findFIFO r true with
    | (some o, m) =>
      count s.hist o.mt (-1) >>= fun h =>
      count h (o.mt + 1) 1 >>= fun h =>
      .ok (true, { s with hitOnGhost := p.1, fifo := f, ghost := p.2, main := m.modify r.id S3FIFO.hit, hist := h })
    | (none, m) => .ok (false, { s with hitOnGhost := p.1, fifo := f, ghost := p.2, main := m })

/-- `S3FIFOdv2_find`, S3FIFOdv2.c:528-592; without `update_cache` lines 532-543. -/
def find (s : State) (r : Req) (update : Bool) : Res (Bool × State) :=
  if update then findUpdate s r
  else .ok ((s.fifo.findFIFO r false).1.isSome || (s.main.findFIFO r false).1.isSome, s)

/-- `S3FIFOdv2_insert`, S3FIFOdv2.c:605-641. -/
def insert (s : State) (r : Req) : Res State :=
  if s.hitOnGhost then
    s.main.insert 0 r >>= fun m =>
    count s.hist 0 1 >>= fun h => .ok { s with hitOnGhost := false, main := m, hist := h }
  else if r.size ≥ s.fifo.base.cacheSize then .ok s
  else s.fifo.insert 0 r >>= fun f => .ok { s with fifo := f }

/-- `S3FIFOdv2_evict_fifo`, S3FIFOdv2.c:658-715: the loop, with a bound on its iterations. -/
def evictFifo : Nat → State → Res State
  | 0, s => if s.fifo.base.occ > 0 then .error .diverge else .ok s
  | n + 1, s =>
    if s.fifo.base.occ > 0 then
      s.fifo.tailObj >>= fun o =>
      if Nat.log2 o.mt < 32 then
        if o.mt ≥ s.move then
          s.main.insert 0 o.toReq >>= fun m =>
          count s.hist 0 1 >>= fun h =>
          S3FIFO.removeAsserted s.fifo o.id >>= fun f =>
          evictFifo n { s with main := m.modify o.id (fun x => { x with mt := 0, miscFreq := o.miscFreq }), fifo := f, hist := h }
        else
          ghostGet s.ghost o.toReq >>= fun g =>
          S3FIFO.removeAsserted s.fifo o.id >>= fun f => .ok { s with ghost := g, fifo := f }
      else .error .outOfBounds
    else .ok s

/-- `S3FIFOdv2_evict_main`, S3FIFOdv2.c:717-764: the loop, with a bound on its iterations.  A failing `main->remove` is ignored in the reinsertion branch (line 737) and calls
`ERROR` (abort) in the other (lines 756-759). -/
def evictMain : Nat → State → Res State
  | 0, s => if s.main.base.occ > 0 then .error .diverge else .ok s
  | n + 1, s =>
    if s.main.base.occ > 0 then
      s.main.tailObj >>= fun o =>
      count s.hist o.mt (-1) >>= fun h =>
      if o.mt ≥ s.keep then
        s.main.remove o.id >>= fun p =>
        p.2.insert 0 o.toReq >>= fun m =>
        count h (min o.mt 3 - 1) 1 >>= fun h =>
        evictMain n { s with main := m.modify o.id (fun x => { x with mt := min o.mt 3 - 1, miscFreq := o.miscFreq }), hist := h }
      else
        s.main.remove o.id >>= fun p =>
        if p.1 then .ok { s with main := p.2, hist := h } else .error .abort
    else .ok s

/-- `S3FIFOdv2_evict`, S3FIFOdv2.c:775-787. -/
def evict (s : State) : Res State :=
  if s.main.base.occ > (s.main.base.cacheSize : Int) ∨ s.fifo.base.occ = 0 then
    evictMain (S3FIFO.freqSum s.main.base + 1) s
  else evictFifo s.fifo.base.tbl.length s

/-- `S3FIFOdv2_remove`, S3FIFOdv2.c:802-811: the first queue that has the object.  `main_freq_cnt` is not updated. -/
def remove (s : State) (id : ObjId) : Res (Bool × State) :=
  s.fifo.remove id >>= fun p =>
  if p.1 then .ok (true, { s with fifo := p.2 })
  else
    ghostRemove s.ghost id >>= fun g =>
    if g.1 then .ok (true, { s with fifo := p.2, ghost := g.2 })
    else
      s.main.remove id >>= fun m => .ok (m.1, { s with fifo := p.2, ghost := g.2, main := m.2 })

/-- `S3FIFOdv2_can_insert`, S3FIFOdv2.c:825-829. -/
def canInsert (s : State) (r : Req) : Bool × State := (decide (r.size ≤ s.fifo.base.cacheSize), s)

/-- The function table, S3FIFOdv2.c:119-130, except `get`. -/
def algo : Algo State where
  find := find
  insert := insert
  evict := fun s _ => evict s
  remove := remove
  canInsert := canInsert
  occ := fun s => s.fifo.base.occ + s.main.base.occ
  nObj := fun s => s.fifo.base.nObj + s.main.base.nObj
  cacheSize := fun s => s.cacheSize
  md := fun _ => 0
  bump := fun s => { s with nReq := s.nReq + 1 }
  fuel := fun s => 2 * s.fifo.base.tbl.length + s.main.base.tbl.length

/-- The first loop of `S3FIFOdv2_update_main_reinsert_threshold`, S3FIFOdv2.c:322-328, from index `32 - n` on: the new threshold, if any.  `POWER2_MAPPING` has 31 entries. -/
def pick (h : Nat → Int) (drop : Int) : Nat → Int → Res (Option Nat)
  | 0, _ => .ok none
  | n + 1, acc =>
    if acc + h (31 - n) > drop then
      if 31 - n < 31 then .ok (some (2 ^ (31 - n))) else .error .outOfBounds
    else pick h drop n (acc + h (31 - n))

/-- `S3FIFOdv2_update_main_reinsert_threshold`, S3FIFOdv2.c:308-347, with what to do with the new threshold. -/
def update (s : State) (set : Nat → State) : Res State :=
  pick s.hist (s.main.base.nObj * 9 / 10) 32 0 >>= fun p =>
  if ((List.range 32).map s.hist).sum ≠ s.main.base.nObj then .error .abort
  else .ok (match p with | some v => set v | none => s)

/-- The end of `S3FIFOdv2_get`, S3FIFOdv2.c:240-248: `..._update_main_reinsert_threshold`, then `..._update_main_reinsert_threshold_incorrect` (lines 270-306), which differs
from it in the threshold that it sets. -/
def adapt (s : State) : Res State :=
  if 10 * s.main.base.occ > 9 * (s.main.base.cacheSize : Int) ∧ s.nReq % 1000 = 0 then
    update s (fun v => { s with keep := v }) >>= fun s => update s (fun v => { s with move := v })
  else .ok s

/-- `S3FIFOdv2_get`, S3FIFOdv2.c:232-263. -/
def get (s : State) (r : Req) : Res (Bool × State) :=
  algo.get s r >>= fun p => adapt p.2 >>= fun s' => .ok (p.1, s')

/-- Serve a trace. -/
def gets : State → List Req → Res (List Bool × State)
  | s, [] => .ok ([], s)
  | s, r :: rs => get s r >>= fun x => gets x.2 rs >>= fun y => .ok (x.1 :: y.1, y.2)

end Verif.S3FIFOdv2
