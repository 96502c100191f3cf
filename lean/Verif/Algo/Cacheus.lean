import Verif.Algo.LRU
import Verif.Algo.LFU
/-!
# libCacheSim/cache/eviction/{Cacheus,SR_LRU,CR_LFU}.c

Cacheus keeps every object twice: in an `SR_LRU` (two LRU lists and a history) and in a `CR_LFU`; each of the two proposes a victim.

Simplifications: `DEBUG_ASSERT`s are compiled out.  The results of `next_rand()` are a parameter: `picks` holds the values of the successive calls.  The weights and the learning
rate are `double`s; `Arith` leaves open what they are.  The resizing of the lists (SR_LRU.c:190-208, 268-283) computes with `double`s, here with exact half integers; a negative size becomes 0.
`Cacheus_get` (Cacheus.c:161-177) runs `cache_get_base` and then, every `update_interval` requests, `update_lr`: the model does the latter at the end of each of the three ways through
`cache_get_base` (a hit, a refusal, an insertion); `plain` has the functions as they are, and `get_eq` in `Verif/Proof/CacheusGet.lean` proves the two equal.
A pointer to an object of a list is the name of the list and the id: it dangles when the id is no longer on that list.
-/

namespace Verif.Cacheus
open Verif
open Verif.LFU (Node setNode)

/-- The weights `w_lru`, `w_lfu`, the learning rate with its previous value, and `hit_rate_prev` (Cacheus.c:14-33). -/
structure Arith where
  W : Type
  /-- `Cacheus_init`, Cacheus.c:100-108; the argument is the result of `next_rand()` -/
  init : Nat → W
  /-- `update_weight`, Cacheus.c:346-363, when the object is in the history of the LRU expert -/
  lruGhost : W → W
  /-- … when it is in the history of the LFU expert only -/
  lfuGhost : W → W
  /-- … when it is in neither: the weights are normalised -/
  noGhost : W → W
  /-- `(next_rand() % 100) / 100.0 < w_lru`, Cacheus.c:253-254 -/
  lruWins : W → Nat → Bool
  /-- `delta_lr != 0`, Cacheus.c:375 -/
  moved : W → Bool
  /-- Cacheus.c:372-396: a step along the gradient; the argument is `hit_rate_current` -/
  learn : W → Nat → W
  /-- `hit_rate_current == 0 || delta_hit_rate <= 0`, Cacheus.c:398 -/
  flat : W → Nat → Bool
  /-- Cacheus.c:372-373: the previous values -/
  keep : W → Nat → W
  /-- Cacheus.c:372-373 and 402-404: a new learning rate from `next_rand()` -/
  redraw : W → Nat → Nat → W

/-- `SR_LRU_obj_metadata_t` and `CR_LFU_obj_metadata_t`, include/libCacheSim/cacheObj.h:50-58: in the union the two Booleans are the first two bytes, `CR_LFU.freq` is bytes 8 to 15. -/
structure Meta where
  demoted : Bool := false
  newObj : Bool := false
  freq : Nat := 0
deriving DecidableEq, Repr

/-- `SR_LRU_params_t`, include/libCacheSim/evictionAlgo/Cacheus.h:9-17, and `obj_md_size` of the `SR_LRU` cache. -/
structure SRLRU where
  /-- `R_list` -/
  R : QState Meta
  /-- `SR_list` -/
  SR : QState Meta
  /-- `H_list` -/
  H : QState Meta
  cDemoted : Nat := 0
  cNew : Nat := 0
  md : Nat := 0
deriving DecidableEq, Repr

/-- `CR_LFU_params_t`, Cacheus.h:19-26, and the `cache_t` of the `CR_LFU`; `nodes` is `freq_map`, and `min_freq = -1` is `none`. -/
structure CRLFU where
  base : Base Nat
  nodes : Nat → Option Node
  minFreq : Option Nat
  maxFreq : Nat

/-- whose object a pointer points to -/
inductive Place where
  | r | sr | lfu
deriving DecidableEq, Repr

/-- `Cacheus_params_t`, Cacheus.c:14-33, and the outer `cache_t`, whose hash table stays empty; `unlearn_count` is not initialised. -/
structure State (A : Arith) where
  base : Base Unit
  lru : SRLRU
  lfu : CRLFU
  /-- `LRU_g` -/
  lruG : QState Unit
  /-- `LFU_g` -/
  lfuG : QState Unit
  w : A.W
  numHit : Nat := 0
  /-- `unlearn_count` -/
  unlearn : Option Nat := none
  picks : List Nat
  /-- `to_evict_candidate_gen_vtime` -/
  candVt : Int := -1
  /-- `to_evict_candidate` -/
  cand : Option (Place × ObjId) := none
  /-- between the start and the end of `Cacheus_get` -/
  inGet : Bool := false

variable {A : Arith}

/-! ### CR_LFU -/

/-- `node != NULL && node->n_obj > 0`, CR_LFU.c:200, 358, 432. -/
def CRLFU.used (f : CRLFU) (k : Nat) : Bool :=
  match f.nodes k with
  | some nd => decide (nd.n > 0)
  | none => false

/-- The loop that looks for the next used frequency, CR_LFU.c:194-204, 352-362, 426-436. -/
def CRLFU.scan (f : CRLFU) (m : Nat) : Option Nat :=
  (List.range' (m + 1) (f.maxFreq - m)).find? f.used

/-- `n_obj += 1` and append to the list of node `k`, CR_LFU.c:161-188, 242-252, 257-282; the node is created when it is not there. -/
def CRLFU.put (f : CRLFU) (id : ObjId) (k : Nat) : Res CRLFU :=
  qAppend ((f.nodes k).getD {}).q id >>= fun q' =>
  .ok { f with nodes := setNode f.nodes k (some ⟨((f.nodes k).getD {}).n + 1, q'⟩) }

/-- `n_obj -= 1` and `remove_obj_from_list` on node `k`, CR_LFU.c:152-159, 408-414. -/
def CRLFU.take (f : CRLFU) (id : ObjId) (k : Nat) : Res CRLFU :=
  match f.nodes k with
  | none => .error .nullDeref
  | some nd => qRemove nd.q id >>= fun q' => .ok { f with nodes := setNode f.nodes k (some ⟨nd.n - 1, q'⟩) }

/-- CR_LFU.c:190-206: after a hit on an object with frequency `k` before. -/
def CRLFU.settle (f : CRLFU) (k : Nat) : CRLFU :=
  if f.minFreq = some k ∧ ((f.nodes k).getD {}).n = 0 then
    match f.scan k with
    | some m => { f with minFreq := some m }
    | none => f
  else f

/-- `CR_LFU_find`, CR_LFU.c:140-209. -/
def CRLFU.find (f : CRLFU) (r : Req) (update : Bool) : Res CRLFU :=
  match f.base.findBase r update with
  | (none, b) => .ok { f with base := b }
  | (some o, b) =>
    if update then
      let f1 : CRLFU := { f with base := b.modify r.id (fun o => { o with mt := o.mt + 1 }), maxFreq := if f.maxFreq < o.mt + 1 then o.mt + 1 else f.maxFreq }
      f1.take r.id o.mt >>= fun f2 =>
      f2.put r.id (o.mt + 1) >>= fun f3 => .ok (f3.settle o.mt)
    else .ok { f with base := b }

/-- the frequency of a new object, CR_LFU.c:224-237 -/
def loadFreq (H : QState Meta) (id : ObjId) : Nat :=
  match H.base.lookup id with
  | some o => o.mt.freq + 1
  | none => 1

/-- `CR_LFU_insert`, CR_LFU.c:221-304. -/
def CRLFU.insert (f : CRLFU) (H : QState Meta) (r : Req) : Res CRLFU :=
  let k := loadFreq H r.id
  let f1 : CRLFU := { f with base := f.base.insertBase k r, minFreq := if k = 1 then some 1 else f.minFreq }
  f1.put r.id k >>= fun f2 =>
  let f3 : CRLFU := { f2 with maxFreq := if f2.maxFreq < k then k else f2.maxFreq }
  .ok (match f3.minFreq with
    | none => { f3 with minFreq := some k }
    | some m => if m > k then { f3 with minFreq := some k } else f3)

/-- the node of `min_freq`, which is dereferenced -/
def CRLFU.minNode (f : CRLFU) : Res Node :=
  match f.minFreq with
  | none => .error .nullDeref
  | some m =>
    match f.nodes m with
    | none => .error .nullDeref
    | some nd => .ok nd

/-- `CR_LFU_to_evict`, CR_LFU.c:306-319. -/
def CRLFU.toEvict (f : CRLFU) : Res (Option ObjId) := f.minNode >>= fun nd => .ok nd.q.getLast?

/-- storing the frequency with the object in the history, CR_LFU.c:334-343, 395-406: NULL is dereferenced when it is not there -/
def offload (H : QState Meta) (id : ObjId) (k : Nat) : Res (QState Meta) :=
  match H.base.lookup id with
  | none => .error .nullDeref
  | some _ => .ok (H.modify id (fun o => { o with mt := { o.mt with freq := k } }))

/-- CR_LFU.c:345-373: unlinking the last object of the node, then the next frequency if it was the only one -/
def CRLFU.dropLast (f : CRLFU) (nd : Node) : CRLFU :=
  let m := f.minFreq.getD 0
  let f1 : CRLFU := { f with nodes := setNode f.nodes m (some ⟨nd.n - 1, nd.q.dropLast⟩) }
  if nd.q.length = 1 then { f1 with minFreq := f1.scan m } else f1

/-- `CR_LFU_evict`, CR_LFU.c:321-383. -/
def CRLFU.evict (f : CRLFU) (H : QState Meta) : Res (CRLFU × QState Meta) :=
  f.minNode >>= fun nd =>
  match nd.q.getLast? with
  | none => .error .nullDeref
  | some id =>
    match f.base.lookup id with
    | none => .error .useAfterFree
    | some o =>
      offload H id o.mt >>= fun H' =>
      f.base.removeObjBase id >>= fun b' => .ok ({ f.dropLast nd with base := b' }, H')

/-- CR_LFU.c:418-438: if the node of `min_freq` is empty, the next frequency; without one it stays -/
def CRLFU.fixMin (f : CRLFU) : Res CRLFU :=
  f.minNode >>= fun nd =>
  if nd.n = 0 then
    match f.scan (f.minFreq.getD 0) with
    | some k => .ok { f with minFreq := some k }
    | none => .ok f
  else .ok f

/-- `CR_LFU_remove`, CR_LFU.c:385-447. -/
def CRLFU.remove (f : CRLFU) (H : QState Meta) (id : ObjId) : Res (Bool × CRLFU × QState Meta) :=
  match f.base.lookup id with
  | none => .ok (false, f, H)
  | some o =>
    offload H id o.mt >>= fun H' =>
    f.take id o.mt >>= fun f1 =>
    f1.base.removeObjBase id >>= fun b' =>
    ({ f1 with base := b' } : CRLFU).fixMin >>= fun f2 => .ok (true, f2, H')

/-! ### SR_LRU -/

/-- subtraction of 1 from a `uint64_t` -/
def dec64 (a : Nat) : Nat := if a = 0 then 18446744073709551615 else a - 1

/-- conversion to `int` -/
def toInt32 (a : Nat) : Int := if a % u32 < 2147483648 then (a % u32 : Nat) else (a % u32 : Nat) - (u32 : Int)

/-- twice `delta`, SR_LRU.c:194-197, 271-274 -/
def delta2 (a b : Nat) : Int := if 2 > 2 * toInt32 (a / b) + 1 then 2 else 2 * toInt32 (a / b) + 1

/-- `SR_LRU_get_occupied_byte`, SR_LRU.c:480-484. -/
def SRLRU.occ (l : SRLRU) : Int := l.R.base.occ + l.SR.base.occ

/-- `SR_LRU_get_n_obj`, SR_LRU.c:486-490. -/
def SRLRU.nObj (l : SRLRU) : Int := l.R.base.nObj + l.SR.base.nObj

/-- new sizes of the two lists: `SR->cache_size = n; R->cache_size = H->cache_size - SR->cache_size` -/
def SRLRU.resize (l : SRLRU) (n : Int) : SRLRU :=
  { l with SR := { l.SR with base := { l.SR.base with cacheSize := n.toNat } }
           R := { l.R with base := { l.R.base with cacheSize := (l.H.base.cacheSize - n).toNat } } }

/-- The loops that move objects from `R` to `SR`, SR_LRU.c:173-184 (`need = 0`) and 244-260. -/
def demote (need : Nat) : Nat → SRLRU → Res SRLRU
  | 0, _ => .error .diverge
  | n + 1, l =>
    if l.R.base.occ + need > l.R.base.cacheSize then
      l.R.tailObj >>= fun o =>
      l.SR.insert { demoted := !o.mt.demoted } o.toReq >>= fun SR' =>
      l.R.evictTail >>= fun R' =>
      demote need n { l with R := R', SR := SR', cDemoted := if o.mt.demoted then l.cDemoted else l.cDemoted + 1 }
    else .ok l

/-- SR_LRU.c:187-208: the size of `R` grows when the object had been demoted; `obj_R` is the object `id` of `R`. -/
def growR (l : SRLRU) (id : ObjId) : Res SRLRU :=
  match l.R.base.lookup id with
  | none => .error .useAfterFree
  | some o =>
    if o.mt.demoted then
      if l.cDemoted = 0 then .error .divZero
      else
        let d := delta2 l.cNew l.cDemoted
        let l1 := l.resize (if 2 * (l.SR.base.cacheSize : Int) - d > 2 then (2 * (l.SR.base.cacheSize : Int) - d) / 2 else 1)
        .ok { l1 with R := l1.R.modify id (fun o => { o with mt := { o.mt with demoted := false } }), cDemoted := dec64 l.cDemoted }
    else .ok l

/-- `SR_LRU_find`, SR_LRU.c:149-215. -/
def SRLRU.find (l : SRLRU) (r : Req) (update : Bool) : Res (Bool × SRLRU) :=
  l.R.findLRU r update >>= fun a =>
  l.SR.findLRU r update >>= fun b =>
  match a.1, b.1 with
  | some o, none => .ok (true, { l with R := a.2, SR := b.2 })
  | some o, some _ =>
    if update then growR { l with R := a.2, SR := b.2 } o.id >>= fun l' => .ok (true, l') else .ok (true, { l with R := a.2, SR := b.2 })
  | none, some o =>
    if update then
      a.2.insert {} o.toReq >>= fun R' =>
      b.2.remove r.id >>= fun p =>
      demote 0 (R'.q.length + 1) { l with R := R', SR := p.2 } >>= fun l1 =>
      growR l1 o.id >>= fun l2 => .ok (true, l2)
    else .ok (true, { l with R := a.2, SR := b.2 })
  | none, none => .ok (false, { l with R := a.2, SR := b.2 })

/-- SR_LRU.c:265-283: the size of `SR` grows when an object comes back from the history as a new one; `obj` is the object `id` of `R`. -/
def growSR (l : SRLRU) (id : ObjId) : Res SRLRU :=
  match l.R.base.lookup id with
  | none => .error .nullDeref
  | some o =>
    if o.mt.newObj then
      if l.cNew = 0 then .error .divZero
      else
        let d := delta2 l.cDemoted l.cNew
        let l1 := l.resize (if 2 * (l.SR.base.cacheSize : Int) + d > 2 * (l.occ - 1) then l.occ - 1 else (2 * (l.SR.base.cacheSize : Int) + d) / 2)
        .ok { l1 with R := l1.R.modify id (fun o => { o with mt := { o.mt with newObj := false } }) }
    else .ok l

/-- `while (H->occupied_byte >= H->cache_size) H->evict(H, req);`, SR_LRU.c:317-319, 393-395, 451-453. -/
def trimH : Nat → SRLRU → Res SRLRU
  | 0, _ => .error .diverge
  | n + 1, l => if l.H.base.occ ≥ l.H.base.cacheSize then l.H.evictTail >>= fun H' => trimH n { l with H := H' } else .ok l

/-- The loop that moves objects from `SR` to the history, SR_LRU.c:294-315; `other_cache` is the `CR_LFU`. -/
def overflow : Nat → SRLRU → CRLFU → Res (SRLRU × CRLFU)
  | 0, _, _ => .error .diverge
  | n + 1, l, f =>
    if l.SR.base.occ > l.SR.base.cacheSize then
      l.SR.tailObj >>= fun o =>
      l.H.insert {} o.toReq >>= fun H1 =>
      f.remove H1 o.id >>= fun p =>
      l.SR.evictTail >>= fun SR' =>
      overflow n { l with SR := SR', H := p.2.2.modify o.id (fun y => { y with mt := { y.mt with newObj := o.mt.newObj } })
                          cNew := if o.mt.newObj then l.cNew + 1 else l.cNew
                          cDemoted := if o.mt.demoted then dec64 l.cDemoted else l.cDemoted } p.2.1
    else .ok (l, f)

/-- `SR_LRU_insert` up to line 292, SR_LRU.c:228-292. -/
def SRLRU.place (l : SRLRU) (r : Req) : Res SRLRU :=
  match l.H.base.lookup r.id with
  | some _ =>
    l.H.remove r.id >>= fun p =>
    demote (r.size + l.md) (l.R.q.length + 1) { l with H := p.2 } >>= fun l1 =>
    l1.R.insert {} r >>= fun R' => growSR { l1 with R := R' } r.id
  | none => l.SR.insert { newObj := true } r >>= fun SR' => .ok { l with SR := SR' }

/-- `SR_LRU_insert`, SR_LRU.c:228-322. -/
def SRLRU.insert (l : SRLRU) (f : CRLFU) (r : Req) : Res (SRLRU × CRLFU) :=
  l.place r >>= fun l1 =>
  overflow (l1.SR.q.length + 1) l1 f >>= fun p =>
  trimH (p.1.H.q.length + 1) p.1 >>= fun l2 => .ok (l2, p.2)

/-- `SR_LRU_to_evict`, SR_LRU.c:334-352; NULL when the list is empty. -/
def SRLRU.toEvict (l : SRLRU) : Option (Place × ObjId) :=
  if l.SR.base.occ = 0 then l.R.q.getLast?.map (fun id => (Place.r, id)) else l.SR.q.getLast?.map (fun id => (Place.sr, id))

/-- an object leaves the two lists for the history, SR_LRU.c:371-383 and 433-443; `keep` says whether its mark `demoted` goes with it -/
def SRLRU.retire (l : SRLRU) (o : Obj Meta) (keep : Bool) : Res SRLRU :=
  l.H.insert { newObj := o.mt.newObj, demoted := o.mt.demoted && keep } o.toReq >>= fun H' =>
  .ok { l with H := H', cNew := if o.mt.newObj then l.cNew + 1 else l.cNew, cDemoted := if o.mt.demoted then dec64 l.cDemoted else l.cDemoted }

/-- `SR_LRU_evict`, SR_LRU.c:363-396. -/
def SRLRU.evict (l : SRLRU) : Res SRLRU :=
  match l.toEvict with
  | none => .error .assertFail
  | some (c, _) =>
    (if c = .r then l.R.tailObj else l.SR.tailObj) >>= fun o =>
    l.retire o true >>= fun l1 =>
    (if l1.SR.base.occ > 0 then l1.SR.evictTail >>= fun SR' => .ok { l1 with SR := SR' }
      else l1.R.evictTail >>= fun R' => .ok { l1 with R := R' }) >>= fun l2 =>
    trimH (l2.H.q.length + 1) l2

/-- `SR_LRU_remove`, SR_LRU.c:411-456. -/
def SRLRU.remove (l : SRLRU) (id : ObjId) : Res (Bool × SRLRU) :=
  match l.R.base.lookup id, l.SR.base.lookup id with
  | some o, _ =>
    l.retire o false >>= fun l1 =>
    l1.R.remove id >>= fun p => trimH (l1.H.q.length + 1) { l1 with R := p.2 } >>= fun l2 => .ok (true, l2)
  | none, some o =>
    l.retire o false >>= fun l1 =>
    l1.SR.remove id >>= fun p => trimH (l1.H.q.length + 1) { l1 with SR := p.2 } >>= fun l2 => .ok (true, l2)
  | none, none => .ok (false, l)

/-- `SR_LRU_can_insert`, SR_LRU.c:458-478. -/
def SRLRU.canInsert (l : SRLRU) (r : Req) : Bool :=
  match l.H.base.lookup r.id with
  | some _ => decide (r.size + l.md ≤ l.R.base.cacheSize)
  | none => decide (r.size + l.md ≤ l.SR.base.cacheSize)

/-! ### Cacheus -/

/-- the result of `next_rand()` -/
def State.draw (s : State A) : Nat := s.picks.headD 0

/-- `update_weight`, Cacheus.c:346-363. -/
def updateWeight (s : State A) (r : Req) : State A :=
  { s with w := if (s.lruG.base.lookup r.id).isSome then A.lruGhost s.w
      else if (s.lfuG.base.lookup r.id).isSome then A.lfuGhost s.w else A.noGhost s.w }

/-- `check_and_update_history`, Cacheus.c:411-422. -/
def history (s : State A) (r : Req) : Res (State A) :=
  LRU.algo.remove s.lruG r.id >>= fun p =>
  LRU.algo.remove s.lfuG r.id >>= fun q =>
  .ok { updateWeight s r with lruG := p.2, lfuG := q.2 }

/-- `Cacheus_find`, Cacheus.c:195-221. -/
def find0 (s : State A) (r : Req) (update : Bool) : Res (Bool × State A) :=
  s.lru.find r update >>= fun p =>
  s.lfu.find r update >>= fun f =>
  let s1 : State A := { s with lru := p.2, lfu := f }
  if update = false then .ok (p.1, s1)
  else if p.1 then .ok (true, { s1 with numHit := s1.numHit + 1 })
  else history s1 r >>= fun s2 => .ok (false, s2)

/-- `Cacheus_insert`, Cacheus.c:233-245. -/
def insert0 (s : State A) (r : Req) : Res (State A) :=
  if s.lru.canInsert r then
    s.lfu.insert s.lru.H r >>= fun f =>
    s.lru.insert f r >>= fun p => .ok { s with lru := p.1, lfu := p.2 }
  else .ok s

/-- `Cacheus_to_evict`, Cacheus.c:248-260. -/
def toEvict (s : State A) : Res (Option (Place × ObjId) × State A) :=
  let s1 : State A := { s with candVt := s.base.nReq, picks := s.picks.tail }
  (if A.lruWins s.w (s.draw % 100) then .ok s.lru.toEvict
    else s.lfu.toEvict >>= fun x => .ok (x.map (fun id => (Place.lfu, id)))) >>= fun c =>
  .ok (c, { s1 with cand := c })

/-- reading an object through a pointer: `copy_cache_obj_to_request` -/
def deref (s : State A) : Option (Place × ObjId) → Res Req
  | none => .error .nullDeref
  | some (.r, id) => match s.lru.R.base.lookup id with
    | some o => .ok o.toReq
    | none => .error .useAfterFree
  | some (.sr, id) => match s.lru.SR.base.lookup id with
    | some o => .ok o.toReq
    | none => .error .useAfterFree
  | some (.lfu, id) => match s.lfu.base.lookup id with
    | some o => .ok o.toReq
    | none => .error .useAfterFree

/-- `Cacheus_evict` after the choice, Cacheus.c:290-312: `l` and `f` are the proposals of the two experts, `c` is `obj_to_evict`. -/
def evictChosen (s : State A) (l f : Place × ObjId) (c : Option (Place × ObjId)) : Res (State A) :=
  if l.2 = f.2 then
    s.lru.evict >>= fun lru1 =>
    s.lfu.evict lru1.H >>= fun p => .ok { s with lru := { lru1 with H := p.2 }, lfu := p.1 }
  else if c = some l then
    deref s c >>= fun r =>
    s.lru.evict >>= fun lru1 =>
    s.lfu.remove lru1.H r.id >>= fun p =>
    LRU.algo.get s.lruG r >>= fun g => .ok { s with lru := { lru1 with H := p.2.2 }, lfu := p.2.1, lruG := g.2 }
  else
    deref s c >>= fun r =>
    s.lru.remove r.id >>= fun p =>
    s.lfu.evict p.2.H >>= fun x =>
    LRU.algo.get s.lfuG r >>= fun g => .ok { s with lru := { p.2 with H := x.2 }, lfu := x.1, lfuG := g.2 }

/-- `Cacheus_evict`, Cacheus.c:270-315. -/
def evict (s : State A) : Res (State A) :=
  s.lfu.toEvict >>= fun f =>
  (if s.candVt = (s.base.nReq : Int) then .ok (s.cand, s) else toEvict s) >>= fun p =>
  match s.lru.toEvict, f with
  | some l, some f => evictChosen p.2 l (.lfu, f) p.1 >>= fun s' => .ok { s' with candVt := -1 }
  | _, _ => .error .nullDeref

/-- `Cacheus_remove`, Cacheus.c:317-324. -/
def remove (s : State A) (id : ObjId) : Res (Bool × State A) :=
  s.lru.remove id >>= fun p =>
  s.lfu.remove p.2.H id >>= fun x => .ok (p.1, { s with lru := { p.2 with H := x.2.2 }, lfu := x.2.1 })

/-- `update_lr`, Cacheus.c:365-408; `num_hit / update_interval` is an integer division.  `unlearn_count` is assigned before it is read: see `C85_count_Cacheus_partial`. -/
def updateLr (s : State A) : State A :=
  let h := s.numHit / s.base.cacheSize
  if A.moved s.w then { s with w := A.learn s.w h, unlearn := some 0, numHit := 0 }
  else if A.flat s.w h then { s with w := A.keep s.w h, unlearn := some (s.unlearn.getD 0 + 1), numHit := 0 }
  else if s.unlearn.getD 0 ≥ 10 then { s with w := A.redraw s.w h (s.draw % 1000), picks := s.picks.tail, unlearn := some 0, numHit := 0 }
  else { s with w := A.keep s.w h, numHit := 0 }

/-- the end of `Cacheus_get`, Cacheus.c:169-171 -/
def endGet (s : State A) : State A := if s.base.nReq % s.base.cacheSize = 0 then updateLr s else s

/-- the end of `Cacheus_get`, if this is the end of one -/
def finish (s : State A) : State A := if s.inGet then endGet { s with inGet := false } else s

/-- `Cacheus_find`; a hit with `update` inside of `Cacheus_get` is followed by its end.  A `get` on a cache without space divides by zero there (Cacheus.c:169). -/
def find (s : State A) (r : Req) (update : Bool) : Res (Bool × State A) :=
  if s.inGet ∧ s.base.cacheSize = 0 then .error .divZero
  else find0 s r update >>= fun p => .ok (p.1, if p.1 && update then finish p.2 else p.2)

/-- `Cacheus_insert`, inside of `Cacheus_get` followed by its end -/
def insert (s : State A) (r : Req) : Res (State A) := insert0 s r >>= fun s' => .ok (finish s')

/-- `cache_can_insert_default` -/
def canInsert0 (s : State A) (r : Req) : Bool × State A := ((s.base.canInsertDefault r).1, { s with base := (s.base.canInsertDefault r).2 })

/-- `cache_can_insert_default`, inside of `Cacheus_get` followed by its end when it refuses -/
def canInsert (s : State A) (r : Req) : Bool × State A := ((canInsert0 s r).1, if (canInsert0 s r).1 then (canInsert0 s r).2 else finish (canInsert0 s r).2)

/-- The function table, Cacheus.c:77-88. -/
def algo (A : Arith) : Algo (State A) where
  find := find
  insert := insert
  evict := fun s _ => evict s
  remove := remove
  canInsert := canInsert
  occ := fun s => s.lru.occ
  nObj := fun s => s.lru.nObj
  cacheSize := fun s => s.base.cacheSize
  md := fun s => s.base.objMd
  bump := fun s => { s with base := s.base.bump, inGet := true }
  fuel := fun s => s.lru.R.q.length + s.lru.SR.q.length

/-- The functions without the end of `Cacheus_get`. -/
def plain (A : Arith) : Algo (State A) where
  find := find0
  insert := insert0
  evict := fun s _ => evict s
  remove := remove
  canInsert := canInsert0
  occ := fun s => s.lru.occ
  nObj := fun s => s.lru.nObj
  cacheSize := fun s => s.base.cacheSize
  md := fun s => s.base.objMd
  bump := fun s => { s with base := s.base.bump }
  fuel := fun s => s.lru.R.q.length + s.lru.SR.q.length

/-- `Cacheus_init`, `SR_LRU_init`, `CR_LFU_init` (Cacheus.c:71-129, SR_LRU.c:44-80, CR_LFU.c:47-86); the sizes of metadata are 40 for the cache, 2 for the `SR_LRU` and
16 for its lists and for the `CR_LFU`, or 0. -/
def init (A : Arith) (cacheSize : Nat) (considerMd : Bool) (adm : Adm) (picks : List Nat) : State A :=
  let m (n : Nat) : Nat := if considerMd then n else 0
  { base := Base.init cacheSize (m 40) adm
    lru := { R := QState.init (cacheSize / 2) (m 16) .none, SR := QState.init (cacheSize / 2) (m 16) .none, H := QState.init cacheSize (m 16) .none, md := m 2 }
    lfu := { base := Base.init cacheSize (m 16) .none, nodes := fun k => if k = 1 then some {} else none, minFreq := some 1, maxFreq := 1 }
    lruG := LRU.init (cacheSize / 2) (m 16) .none
    lfuG := LRU.init (cacheSize / 2) (m 16) .none
    w := A.init (picks.headD 0)
    picks := picks.tail }

end Verif.Cacheus
