import Verif.Algo.Queue
import Verif.Spec.ARC
/-!
# ARC: libCacheSim/cache/eviction/ARC.c

The four lists (`L1_data`, `L1_ghost`, `L2_data`, `L2_ghost` in the C code) are T1, B1, T2 and B2 here.  `DEBUG_ASSERT`s are compiled
out, and `USE_BELADY`, `TRACK_DEMOTION` and `DEBUG_MODE` are off.
-/

namespace Verif.ARC
open Verif Verif.Spec.Adaptive

/-- The arithmetic on the target `p`, which is a `double` in the C code.  The theorems hold for every implementation of it, in
particular for IEEE arithmetic; `Arith.exact` is exact arithmetic. -/
structure Arith where
  P : Type
  zero : P
  /-- `MIN(p + MAX((double)x / y, 1), c)` -/
  up : P → Int → Int → Nat → P
  /-- `MAX(p - MAX((double)x / y, 1), 0)` -/
  down : P → Int → Int → P
  /-- `x > p` -/
  gt : Int → P → Bool
  /-- `x == p` -/
  eq : Int → P → Bool

/-- Exact arithmetic; division by zero gives infinity as in IEEE arithmetic (0/0 is NaN, for which `MAX(_, 1)` is 1). -/
def Arith.exact : Arith where
  P := Rat
  zero := 0
  up := fun p x y c => if y = 0 ∧ 0 < x then (c : Rat) else min (p + max ((x : Rat) / (y : Rat)) 1) (c : Rat)
  down := fun p x y => if y = 0 ∧ 0 < x then 0 else max (p - max ((x : Rat) / (y : Rat)) 1) 0
  gt := fun x p => decide (p < (x : Rat))
  eq := fun x p => decide ((x : Rat) = p)

/-- Write one element of a family. -/
def upd {α : Type} (f : Lst → α) (i : Lst) (v : α) : Lst → α := fun j => if j = i then v else f j

/-- `ARC_params_t`, ARC.c:31-53, and the cache.  The metadata of an object, `lru_id` and `ghost` (cacheObj.h:31-35), is modelled by the
name of the list it denotes. -/
structure State (R : Arith) where
  base : Base Lst
  /-- `L1_data_head`/`_tail` etc., head first -/
  q : Lst → List ObjId
  /-- `L1_data_size` etc. -/
  sz : Lst → Int
  p : R.P
  /-- `curr_obj_in_L1_ghost` -/
  inB1 : Bool
  /-- `curr_obj_in_L2_ghost` -/
  inB2 : Bool
  /-- `vtime_last_req_in_ghost` -/
  vtime : Int

variable {R : Arith}

/-- `ARC_init`, ARC.c:99-149 (`md` is 40 if object metadata is considered, else 0). -/
def init (cacheSize md : Nat) (adm : Adm) : State R :=
  { base := Base.init cacheSize md adm, q := fun _ => [], sz := fun _ => 0, p := R.zero, inB1 := false, inB2 := false, vtime := -1 }

/-- `obj->ARC.ghost` -/
def ghost : Lst → Bool
  | .T1 => false
  | .T2 => false
  | .B1 => true
  | .B2 => true

/-- `obj->obj_size + cache->obj_md_size`: 32-bit unsigned arithmetic. -/
def osz (s : State R) (o : Obj Lst) : Int := ((o.size + s.base.objMd) % u32 : Nat)

/-- `remove_obj_from_list` and the reduction of the list's byte counter that always goes with it (ARC.c:251-252, 260-261, 276, 285,
458-460, 475-476, 486-488, 502-503, 513-514, 397-409). -/
def takeOff (s : State R) (k : Lst) (o : Obj Lst) : Res (State R) :=
  qRemove (s.q k) o.id >>= fun q' => .ok { s with q := upd s.q k q', sz := upd s.sz k (s.sz k - osz s o) }

/-- `prepend_obj_to_head` and the increase of the byte counter that always goes with it (ARC.c:277, 286, 316-317, 325-326, 459-461,
487-489). -/
def putOn (s : State R) (k : Lst) (id : ObjId) (n : Int) : Res (State R) :=
  qPrepend (s.q k) id >>= fun q' => .ok { s with q := upd s.q k q', sz := upd s.sz k (s.sz k + n) }

/-- The object at the tail of a list, used without a NULL check (ARC.c:448, 467, 483, 498, 509). -/
def tailObj (s : State R) (k : Lst) : Res (Obj Lst) :=
  qTail (s.q k) >>= fun id =>
  match s.base.lookup id with
  | some o => .ok o
  | none => .error .useAfterFree

/-- A ghost hit, ARC.c:239-264. -/
def ghostHit (s : State R) (o : Obj Lst) : Res (State R) :=
  if o.mt = .B1 then
    takeOff { s with vtime := s.base.nReq, inB1 := true, p := R.up s.p (s.sz .B2) (s.sz .B1) s.base.cacheSize } .B1 o >>= fun s1 =>
    .ok { s1 with base := s1.base.del o.id }
  else
    takeOff { s with vtime := s.base.nReq, inB2 := true, p := R.down s.p (s.sz .B1) (s.sz .B2) } .B2 o >>= fun s1 =>
    .ok { s1 with base := s1.base.del o.id }

/-- A hit, ARC.c:266-290. -/
def dataHit (s : State R) (o : Obj Lst) : Res (State R) :=
  if o.mt = .T1 then
    takeOff { s with base := s.base.modify o.id (fun o => { o with mt := .T2 }) } .T1 o >>= fun s1 => putOn s1 .T2 o.id (osz s o)
  else
    qMoveToHead (s.q .T2) o.id >>= fun q' => .ok { s with q := upd s.q .T2 q' }

/-- `ARC_find`, ARC.c:219-294.  Without update the pointer returned by `cache_find_base` is used without a NULL check (line 226). -/
def find (s : State R) (r : Req) (update : Bool) : Res (Bool × State R) :=
  match s.base.findBase r update with
  | (ob, b) =>
    if update = false then
      match ob with
      | none => .error .nullDeref
      | some o => .ok (!ghost o.mt, { s with base := b })
    else
      match ob with
      | none => .ok (false, { s with base := b })
      | some o =>
        if ghost o.mt then ghostHit { s with base := b, inB1 := false, inB2 := false } o >>= fun s' => .ok (false, s')
        else dataHit { s with base := b, inB1 := false, inB2 := false } o >>= fun s' => .ok (true, s')

/-- `vtime_last_req_in_ghost == n_req && (curr_obj_in_L1_ghost || curr_obj_in_L2_ghost)`, ARC.c:312-313, 345-346, 365-366. -/
def afterGhostHit (s : State R) : Bool := decide (s.vtime = (s.base.nReq : Int)) && (s.inB1 || s.inB2)

/-- `ARC_insert`, ARC.c:307-330. -/
def insert (s : State R) (r : Req) : Res (State R) :=
  if afterGhostHit s then
    putOn { s with base := s.base.insertBase .T2 r, inB1 := false, inB2 := false, vtime := -1 } .T2 r.id (r.size + s.base.objMd : Nat)
  else
    putOn { s with base := s.base.insertBase .T1 r } .T1 r.id (r.size + s.base.objMd : Nat)

/-- The condition of `_ARC_replace` and `_ARC_to_replace`, ARC.c:428-434, 523-529. -/
def replaceT1 (s : State R) : Bool :=
  (decide (s.sz .T1 > 0) && (R.gt (s.sz .T1) s.p || (R.eq (s.sz .T1) s.p && s.inB2))) || decide (s.sz .T2 = 0)

/-- `_ARC_evict_L1_data`, ARC.c:446-463 (`k` = T1, `g` = B1) and `_ARC_evict_L2_data`, ARC.c:481-494 (T2, B2). -/
def demote (s : State R) (k g : Lst) : Res (State R) :=
  tailObj s k >>= fun o =>
  s.base.removeObjBaseKeep o.id >>= fun b =>
  takeOff { s with base := b } k o >>= fun s1 =>
  putOn s1 g o.id (osz s o) >>= fun s2 =>
  .ok { s2 with base := s2.base.modify o.id (fun o => { o with mt := g }) }

/-- `_ARC_evict_L1_data_no_ghost`, ARC.c:465-479. -/
def evictNoGhost (s : State R) : Res (State R) :=
  tailObj s .T1 >>= fun o =>
  takeOff s .T1 o >>= fun s1 =>
  s1.base.evictBase o.id >>= fun b => .ok { s1 with base := b }

/-- `_ARC_evict_L1_ghost`, ARC.c:496-505 and `_ARC_evict_L2_ghost`, ARC.c:507-516. -/
def evictGhost (s : State R) (k : Lst) : Res (State R) :=
  tailObj s k >>= fun o =>
  takeOff s k o >>= fun s1 => .ok { s1 with base := s1.base.del o.id }

/-- `_ARC_replace`, ARC.c:519-536. -/
def replace (s : State R) : Res (State R) := if replaceT1 s then demote s .T1 .B1 else demote s .T2 .B2

/-- `_ARC_evict_miss_on_all_queues`, ARC.c:561-595. -/
def evictMiss (s : State R) (r : Req) : Res (State R) :=
  if s.sz .T1 + s.sz .B1 + (r.size + s.base.objMd : Nat) > (s.base.cacheSize : Int) then
    if s.sz .B1 > 0 then evictGhost s .B1 >>= fun s1 => replace s1
    else evictNoGhost s
  else
    (if s.sz .T1 + s.sz .B1 + s.sz .T2 + s.sz .B2 ≥ (s.base.cacheSize * 2 : Nat) ∧ s.sz .B2 > 0 then evictGhost s .B2 else .ok s) >>= fun s1 =>
    replace s1

/-- `ARC_evict`, ARC.c:363-372. -/
def evict (s : State R) (r : Req) : Res (State R) := if afterGhostHit s then replace s else evictMiss s r

/-- `ARC_to_evict`, ARC.c:342-352, with `_ARC_to_replace` (423-444) and `_ARC_to_evict_miss_on_all_queues` (540-558); `none` is NULL. -/
def toEvict (s : State R) (r : Req) : Option ObjId :=
  if afterGhostHit s then if replaceT1 s then (s.q .T1).getLast? else (s.q .T2).getLast?
  else if s.sz .T1 + s.sz .B1 + (r.size + s.base.objMd : Nat) > (s.base.cacheSize : Int) then
    if s.sz .B1 > 0 then if replaceT1 s then (s.q .T1).getLast? else (s.q .T2).getLast?
    else (s.q .T1).getLast?
  else if replaceT1 s then (s.q .T1).getLast? else (s.q .T2).getLast?

/-- `ARC_remove`, ARC.c:387-415: a ghost is taken off its list but stays in the hash table. -/
def remove (s : State R) (id : ObjId) : Res (Bool × State R) :=
  match s.base.lookup id with
  | none => .ok (false, s)
  | some o =>
    takeOff s o.mt o >>= fun s1 =>
    if ghost o.mt then .ok (true, s1)
    else s1.base.removeObjBase id >>= fun b => .ok (true, { s1 with base := b })

/-- `cache->can_insert = cache_can_insert_default` -/
def canInsert (s : State R) (r : Req) : Bool × State R :=
  ((s.base.canInsertDefault r).1, { s with base := (s.base.canInsertDefault r).2 })

/-- The function table set up by `ARC_init`, ARC.c:103-113. -/
def algo (R : Arith) : Algo (State R) where
  find := find
  insert := insert
  evict := evict
  remove := remove
  canInsert := canInsert
  occ := fun s => s.base.occ
  nObj := fun s => s.base.nObj
  cacheSize := fun s => s.base.cacheSize
  md := fun s => s.base.objMd
  bump := fun s => { s with base := s.base.bump }
  fuel := fun s => s.base.tbl.length

end Verif.ARC
