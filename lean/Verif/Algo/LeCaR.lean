import Verif.Algo.LFU
/-!
# libCacheSim/cache/eviction/LeCaR.c

`LECAR_USE_BELADY` is off (LeCaR.c:21) and `DEBUG_ASSERT`s are compiled out.  The result of `next_rand() % 100` is a parameter: `picks`
holds the values of the successive calls.  The weights are `double`s computed with `pow` and `exp`; `Arith` leaves open what they are, so
the theorems hold for every way of adapting them.
-/

namespace Verif.LeCaR
open Verif
open Verif.LFU (Node setNode)

/-- The weights `w_lru` and `w_lfu` with the parameters `lr`, `dr` and `update_weight`. -/
structure Arith where
  W : Type
  init : W
  /-- `update_weight(cache, t, &w_lru, &w_lfu)`, LeCaR.c:750-761 -/
  updLru : W → Int → W
  /-- `update_weight(cache, t, &w_lfu, &w_lru)` -/
  updLfu : W → Int → W
  /-- `x / 100.0 < w_lru` -/
  lruWins : W → Nat → Bool

/-- The access counter: `inc` is `freq += 1`. -/
structure Counter where
  inc : Nat → Nat

/-- A counter without overflow. -/
def Counter.exact : Counter := ⟨Nat.succ⟩

/-- The field of the C code, `int64_t freq:23` (cacheObj.h:41), as the `uint64_t` it is converted to in comparisons and map keys:
2^22 - 1 is followed by -2^22, and -1 by 0. -/
def Counter.field : Counter := ⟨fun f => if f = 2 ^ 22 - 1 then 2 ^ 64 - 2 ^ 22 else (f + 1) % 2 ^ 64⟩

/-- `LeCaR_obj_metadata_t`, cacheObj.h:37-44, without the list pointers. -/
structure Meta where
  freq : Nat
  ghost : Bool
  expert : Int
  vtime : Int
deriving DecidableEq, Repr

/-- `LeCaR_params_t`, LeCaR.c:25-52, and the cache.  `nodes` is `freq_map`; `freq_one_node` is the node with key 1, which is never
removed from the map.  `candVt` is `to_evict_candidate_gen_vtime`.  The statistics `n_hit_lru_history` and `n_hit_lfu_history` are
never read and left out, and so is `to_evict_candidate`, which is overwritten before it is read (line 461). -/
structure State (R : Arith) where
  base : Base Meta
  /-- `q_head` … `q_tail` -/
  q : List ObjId
  /-- `ghost_lru_head` … `ghost_lru_tail` -/
  gLru : List ObjId
  /-- `ghost_lfu_head` … `ghost_lfu_tail` -/
  gLfu : List ObjId
  /-- `lru_g_occupied_byte` -/
  lruB : Int
  /-- `lfu_g_occupied_byte` -/
  lfuB : Int
  nodes : Nat → Option Node
  minFreq : Nat
  maxFreq : Nat
  w : R.W
  picks : List Nat
  candVt : Int

variable {R : Arith}

/-- `obj_size + cache->obj_md_size`: 32-bit unsigned arithmetic. -/
def osz (s : State R) (o : Obj Meta) : Int := ((o.size + s.base.objMd) % u32 : Nat)

/-- `update_LFU_min_freq`, LeCaR.c:645-660: the first key above `min_freq` and up to `max_freq` with a non-empty node; without one,
`min_freq` stays. -/
def updateMin (s : State R) : State R :=
  match (List.range' (s.minFreq + 1) (s.maxFreq - s.minFreq)).find? (fun f => match s.nodes f with
    | some nd => decide (nd.n > 0)
    | none => false) with
  | some f => { s with minFreq := f }
  | none => s

/-- `remove_obj_from_freq_node`, LeCaR.c:678-717, for an object with counter `f`. -/
def takeFreq (s : State R) (id : ObjId) (f : Nat) : Res (State R) :=
  match s.nodes f with
  | none => .error .nullDeref
  | some nd =>
    qRemove nd.q id >>= fun q' =>
    .ok (if f = s.minFreq ∧ nd.n - 1 = 0 then updateMin { s with nodes := setNode s.nodes f (some ⟨nd.n - 1, q'⟩) }
      else { s with nodes := setNode s.nodes f (some ⟨nd.n - 1, q'⟩) })

/-- `insert_obj_info_freq_node`, LeCaR.c:719-748, for an object with counter `f`. -/
def putFreq (s : State R) (id : ObjId) (f : Nat) : Res (State R) :=
  qAppend ((s.nodes f).getD {}).q id >>= fun q' =>
  .ok { s with nodes := setNode s.nodes f (some ⟨((s.nodes f).getD {}).n + 1, q'⟩) }

/-- A ghost is requested, LeCaR.c:237-265. -/
def ghostHit (s : State R) (o : Obj Meta) : Res (State R) :=
  if o.mt.expert = 1 then
    qRemove s.gLru o.id >>= fun g =>
    .ok { s with w := R.updLru s.w (s.base.nReq - o.mt.vtime), gLru := g, lruB := s.lruB - osz s o, base := s.base.del o.id }
  else if o.mt.expert = 2 then
    qRemove s.gLfu o.id >>= fun g =>
    .ok { s with w := R.updLfu s.w (s.base.nReq - o.mt.vtime), gLfu := g, lfuB := s.lfuB - osz s o, base := s.base.del o.id }
  else if o.mt.expert = -1 then .ok { s with base := s.base.del o.id }
  else .error .assertFail

/-- The end of a hit, LeCaR.c:283-292, for an object whose counter has become `f`. -/
def settleMin (s : State R) (f : Nat) : State R :=
  let s1 := if s.base.nObj = 1 then updateMin s else s
  if f < s1.minFreq then { s1 with minFreq := f } else s1

/-- A hit, LeCaR.c:267-293. -/
def dataHit (K : Counter) (s : State R) (o : Obj Meta) : Res (State R) :=
  qMoveToHead s.q o.id >>= fun q' =>
  takeFreq { s with q := q' } o.id o.mt.freq >>= fun s1 =>
  putFreq { s1 with base := s1.base.modify o.id (fun o => { o with mt := { o.mt with freq := K.inc o.mt.freq } }),
                    maxFreq := if s1.maxFreq < K.inc o.mt.freq then K.inc o.mt.freq else s1.maxFreq } o.id (K.inc o.mt.freq) >>= fun s2 =>
  .ok (settleMin s2 (K.inc o.mt.freq))

/-- `LeCaR_find`, LeCaR.c:220-300. -/
def find (K : Counter) (s : State R) (r : Req) (update : Bool) : Res (Bool × State R) :=
  match s.base.findBase r update with
  | (none, b) => .ok (false, { s with base := b })
  | (some o, b) =>
    if update = false then .ok (!o.mt.ghost, { s with base := b })
    else if o.mt.ghost then ghostHit { s with base := b } o >>= fun s' => .ok (false, s')
    else dataHit K { s with base := b } o >>= fun s' => .ok (true, s')

/-- `LeCaR_insert`, LeCaR.c:312-342. -/
def insert (s : State R) (r : Req) : Res (State R) :=
  qPrepend s.q r.id >>= fun q' =>
  match s.nodes 1 with
  | none => .error .useAfterFree
  | some nd =>
    qAppend nd.q r.id >>= fun n' =>
    .ok { s with base := s.base.insertBase ⟨1, false, 0, 0⟩ r, q := q', minFreq := 1, nodes := setNode s.nodes 1 (some ⟨nd.n + 1, n'⟩) }

/-- `get_min_freq_node(params)->first_obj`, LeCaR.c:662-676: the node is dereferenced; `none` is NULL. -/
def lfuFirst (s : State R) : Res (Option ObjId) :=
  match s.nodes s.minFreq with
  | none => .error .nullDeref
  | some nd => .ok nd.q.head?

/-- `LeCaR_to_evict`, LeCaR.c:435-448. -/
def toEvict (s : State R) : Res (Option ObjId × State R) :=
  if R.lruWins s.w (s.picks.headD 0) then .ok (s.q.getLast?, { s with candVt := s.base.nReq, picks := s.picks.tail })
  else lfuFirst s >>= fun c => .ok (c, { s with candVt := s.base.nReq, picks := s.picks.tail })

/-- The choice of the victim and of the value for its `evict_expert`, LeCaR.c:461-498.  When a candidate has been generated by
`to_evict`, `obj_to_evict` is `cache->to_evict_candidate`, which line 461 has overwritten with the tail of the LRU list. -/
def choose (s : State R) (lru lfu : Option ObjId) : Option ObjId × Int × State R :=
  if s.candVt = (s.base.nReq : Int) then (lru, (if lru = lfu then -1 else 1), { s with candVt := -1 })
  else if lru = lfu then (lru, -1, s)
  else if R.lruWins s.w (s.picks.headD 0) then (lru, 1, { s with picks := s.picks.tail })
  else (lfu, 2, { s with picks := s.picks.tail })

/-- The loop of LeCaR.c:518-526 on the LRU history; every round takes an object off the list, so its length bounds the rounds. -/
def trimLru : Nat → State R → Res (State R)
  | n, s =>
    if s.lruB > (s.base.cacheSize / 2 : Nat) then
      match n with
      | 0 => .error .diverge
      | n + 1 =>
        qTail s.gLru >>= fun id =>
        match s.base.lookup id with
        | none => .error .useAfterFree
        | some o => trimLru n { s with lruB := s.lruB - osz s o, gLru := s.gLru.dropLast, base := s.base.del id }
    else .ok s

/-- The loop of LeCaR.c:532-540 on the LFU history. -/
def trimLfu : Nat → State R → Res (State R)
  | n, s =>
    if s.lfuB > (s.base.cacheSize / 2 : Nat) then
      match n with
      | 0 => .error .diverge
      | n + 1 =>
        qTail s.gLfu >>= fun id =>
        match s.base.lookup id with
        | none => .error .useAfterFree
        | some o => trimLfu n { s with lfuB := s.lfuB - osz s o, gLfu := s.gLfu.dropLast, base := s.base.del id }
    else .ok s

/-- `cache->n_req` stored in the field `int64_t eviction_vtime:40` (cacheObj.h:40). -/
def asField (n : Nat) : Int := Int.bmod n (2 ^ 40)

/-- The rest of `LeCaR_evict`, LeCaR.c:500-545: the victim `o` becomes a ghost and goes to the history of expert `e`. -/
def retire (s : State R) (o : Obj Meta) (e : Int) : Res (State R) :=
  qRemove s.q o.id >>= fun q' =>
  takeFreq { s with q := q', base := s.base.modify o.id (fun o => { o with mt := { o.mt with ghost := true, expert := e, vtime := asField s.base.nReq } }) } o.id o.mt.freq >>= fun s1 =>
  s1.base.removeObjBaseKeep o.id >>= fun b =>
  if e = 1 then
    qPrepend s1.gLru o.id >>= fun g => trimLru g.length { s1 with base := b, gLru := g, lruB := s1.lruB + osz s o }
  else if e = 2 then
    qPrepend s1.gLfu o.id >>= fun g => trimLfu g.length { s1 with base := b, gLfu := g, lfuB := s1.lfuB + osz s o }
  else .ok { s1 with base := b }

/-- `LeCaR_evict`, LeCaR.c:458-545. -/
def evict (s : State R) : Res (State R) :=
  lfuFirst s >>= fun lfu =>
  match (choose s s.q.getLast? lfu).1 with
  | none => .error .nullDeref
  | some id =>
    match s.base.lookup id with
    | none => .error .useAfterFree
    | some o => retire (choose s s.q.getLast? lfu).2.2 o (choose s s.q.getLast? lfu).2.1

/-- `LeCaR_remove`, LeCaR.c:561-578: ghosts are not told from cached objects. -/
def remove (s : State R) (id : ObjId) : Res (Bool × State R) :=
  match s.base.lookup id with
  | none => .ok (false, s)
  | some o =>
    qRemove s.q id >>= fun q' =>
    takeFreq { s with q := q' } id o.mt.freq >>= fun s1 =>
    s1.base.removeObjBase id >>= fun b => .ok (true, { s1 with base := b })

/-- The function table set up by `LeCaR_init`, LeCaR.c:110-117. -/
def algo (R : Arith) (K : Counter) : Algo (State R) where
  find := find K
  insert := insert
  evict := fun s _ => evict s
  remove := remove
  canInsert := fun s r => ((s.base.canInsertDefault r).1, { s with base := (s.base.canInsertDefault r).2 })
  occ := fun s => s.base.occ
  nObj := fun s => s.base.nObj
  cacheSize := fun s => s.base.cacheSize
  md := fun s => s.base.objMd
  bump := fun s => { s with base := s.base.bump }
  fuel := fun s => s.q.length

/-- `LeCaR_init`, LeCaR.c:119-158; `to_evict_candidate_gen_vtime` is -1 (cache.c:42). -/
def init (R : Arith) (cacheSize md : Nat) (adm : Adm) (picks : List Nat) : State R :=
  { base := Base.init cacheSize md adm, q := [], gLru := [], gLfu := [], lruB := 0, lfuB := 0,
    nodes := fun f => if f = 1 then some {} else none, minFreq := 1, maxFreq := 1, w := R.init, picks := picks, candVt := -1 }

end Verif.LeCaR
