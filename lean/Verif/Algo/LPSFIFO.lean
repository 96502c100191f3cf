import Verif.Algo.Queue
/-!
# LP_SFIFO: libCacheSim/cache/eviction/fifo/LP_SFIFO.c

The array `fifos` of complete FIFO caches is modelled as a function of the segment number; all uses in the C code are within `0..n_seg-1`.  The objects carry
the counter `freq`, an `int32_t` that is a natural number here.
-/

namespace Verif.LPSFIFO
open Verif

/-- `params->fifos`, LP_SFIFO.c:21-26; the union member of an object is `freq` (cacheObj.h:107-111) -/
abbrev Segs := Nat → QState Nat

/-- Write one array element. -/
def upd (f : Segs) (i : Nat) (v : QState Nat) : Segs := fun j => if j = i then v else f j

/-- The cache and `LP_SFIFO_params_t`, LP_SFIFO.c:21-26; `occupied_byte` and `n_obj` of the outer `cache_t` stay 0. -/
structure State where
  base : Base Unit
  /-- `n_seg` -/
  n : Nat
  /-- `per_seg_max_size` -/
  lim : Nat → Nat
  seg : Segs

/-- `LP_SFIFO_init`, LP_SFIFO.c:67-105, once the parameters are known: one FIFO cache per segment.  `obj_md_size` is 0 in the outer cache and in every FIFO cache
(LP_SFIFO.c:82, FIFO.c:63). -/
def init (cacheSize : Nat) (adm : Adm) (n : Nat) (lim : Nat → Nat) : State :=
  { base := Base.init cacheSize 0 adm, n := n, lim := lim, seg := fun i => QState.init (lim i) 0 .none }

/-- One `key=value` of the parameter string, LP_SFIFO.c:373-402; other keys abort or end the program. -/
inductive Param where
  | nSeg (n : Nat)
  | segSize (parts : List Nat)

/-- One round of `LP_SFIFO_parse_params`, LP_SFIFO.c:373-402: `n-seg` leaves `per_seg_max_size` alone; `seg-size` writes up to 16 numbers to an array.  The share
`(int64_t)((double)part / sum * cache_size)` is a parameter. -/
def parseOne (share : Nat → Nat → Nat) (p : Nat × List Nat) : Param → Res (Nat × List Nat)
  | .nSeg n => .ok (n, p.2)
  | .segSize parts => if parts.length ≤ 16 then .ok (parts.length, parts.map (fun x => share x parts.sum)) else .error .outOfBounds

/-- `LP_SFIFO_parse_params`, LP_SFIFO.c:359-404. -/
def parse (share : Nat → Nat → Nat) (p : Nat × List Nat) : List Param → Res (Nat × List Nat)
  | [] => .ok p
  | x :: l => parseOne share p x >>= fun p' => parse share p' l

/-- `LP_SFIFO_init` with its parameters, LP_SFIFO.c:89-103: first the default string `n-seg=4,seg-size=1:1:1:1` (line 28), then that of the user.
`per_seg_max_size[i]` is read for every segment. -/
def setup (share : Nat → Nat → Nat) (cacheSize : Nat) (adm : Adm) (user : List Param) : Res State :=
  parse share (0, []) ([.nSeg 4, .segSize [1, 1, 1, 1]] ++ user) >>= fun p =>
  if p.1 ≤ p.2.length then .ok (init cacheSize adm p.1 (fun i => p.2.getD i 0)) else .error .outOfBounds

/-- The segment found by the loop of `LP_SFIFO_find`, LP_SFIFO.c:172-174. -/
def locate (s : State) (id : ObjId) : Option Nat := (List.range s.n).find? (fun i => ((s.seg i).base.lookup id).isSome)

/-- The counter after a hit in segment `i`, LP_SFIFO.c:176-182. -/
def counted (i f : Nat) : Nat := if i = 0 then (if f = 0 then 1 else f) else f + 1

/-- `LP_SFIFO_find`, LP_SFIFO.c:168-189: the argument `update_cache` is not looked at. -/
def find (s : State) (r : Req) (_update : Bool) : Res (Bool × State) :=
  match locate s r.id with
  | none => .ok (false, s)
  | some i => .ok (true, { s with seg := upd s.seg i ((s.seg i).modify r.id (fun o => { o with mt := counted i o.mt })) })

/-- `fifo->get_occupied_byte(fifo) > per_seg_max_size[k]` -/
def over (s : State) (k : Nat) : Bool := decide ((s.seg k).base.occ > (s.lim k : Int))

/-- The loop of `LP_SFIFO_demote` at segment `k + 1`, LP_SFIFO.c:317-326: the oldest object goes to the recent end of the segment below.  The fuel is the number of
objects in the segment; each round takes one away. -/
def pass (k : Nat) : Nat → State → Res State
  | m, s =>
    if over s (k + 1) then
      match m with
      | 0 => .error .diverge
      | m + 1 =>
        (s.seg (k + 1)).tailObj >>= fun o =>
        (s.seg (k + 1)).evictTail >>= fun q =>
        (s.seg k).insert o.mt o.toReq >>= fun q' => pass k m { s with seg := upd (upd s.seg (k + 1) q) k q' }
    else .ok s

/-- `LP_SFIFO_get_occupied_byte`, LP_SFIFO.c:429-436 -/
def occ (s : State) : Int := ((List.range s.n).map (fun i => (s.seg i).base.occ)).sum

/-- `LP_SFIFO_demote`, LP_SFIFO.c:305-331. -/
def demote : Nat → State → Res State
  | 0, s => if occ s ≤ (s.base.cacheSize : Int) then .ok s else .error .assertFail
  | k + 1, s => pass k (s.seg (k + 1)).q.length s >>= fun s' => if over s' k then demote k s' else .ok s'

/-- `LP_SFIFO_evict`, LP_SFIFO.c:271-303. -/
def evict (s : State) : Res State :=
  if (s.seg 0).base.occ > 0 then
    (s.seg 0).tailObj >>= fun o =>
    (s.seg 0).evictTail >>= fun q =>
    if o.mt > 0 then
      let j := if o.mt ≥ s.n then s.n - 1 else o.mt
      let s1 := { s with seg := upd s.seg 0 q }
      (s1.seg j).insert 0 o.toReq >>= fun q' =>
      let s2 := { s1 with seg := upd s1.seg j q' }
      if over s2 j then demote j s2 else .ok s2
    else .ok { s with seg := upd s.seg 0 q }
  else .error .assertFail

/-- The segment `LP_SFIFO_insert` looks for, LP_SFIFO.c:205-214. -/
def pick (s : State) (r : Req) : Option Nat :=
  (List.range s.n).find? (fun i => decide ((s.seg i).base.occ + r.size + s.base.objMd ≤ (s.lim i : Int)))

/-- The loop of `LP_SFIFO_insert`, LP_SFIFO.c:218-221: it looks at `cache->occupied_byte`, which stays 0. -/
def insertLoop (r : Req) : Nat → State → Res State
  | m, s =>
    if s.base.occ + r.size + s.base.objMd > (s.base.cacheSize : Int) then
      match m with
      | 0 => .error .diverge
      | m + 1 => evict s >>= fun s' => insertLoop r m s'
    else .ok s

/-- LP_SFIFO.c:226-228 -/
def insertAt (s : State) (r : Req) (k : Nat) : Res State :=
  (s.seg k).insert 0 r >>= fun q => .ok { s with seg := upd s.seg k q }

/-- Number of objects in all segments. -/
def count (s : State) : Nat := ((List.range s.n).map (fun i => (s.seg i).q.length)).sum

/-- `LP_SFIFO_insert`, LP_SFIFO.c:202-231. -/
def insert (s : State) (r : Req) : Res State :=
  match pick s r with
  | some k => insertAt s r k
  | none => insertLoop r (2 * count s + 1) s >>= fun s' => insertAt s' r 0

/-- `LP_SFIFO_to_evict`, LP_SFIFO.c:243-251: the oldest object of the first segment that holds any bytes. -/
def toEvict (s : State) : Option ObjId :=
  match (List.range s.n).find? (fun i => decide ((s.seg i).base.occ > 0)) with
  | none => none
  | some i => (s.seg i).q.getLast?

/-- The loop of `LP_SFIFO_remove`, LP_SFIFO.c:349-353, from segment `i` on, with `m` segments left. -/
def removeFrom (s : State) (id : ObjId) : Nat → Nat → Res (Bool × State)
  | _, 0 => .ok (false, s)
  | i, m + 1 =>
    (s.seg i).remove id >>= fun x =>
    if x.1 then .ok (true, { s with seg := upd s.seg i x.2 }) else removeFrom s id (i + 1) m

/-- `LP_SFIFO_remove`, LP_SFIFO.c:346-356. -/
def remove (s : State) (id : ObjId) : Res (Bool × State) := removeFrom s id 0 s.n

/-- `LP_SFIFO_can_insert`, LP_SFIFO.c:422-427. -/
def canInsert (s : State) (r : Req) : Bool × State :=
  ((s.base.canInsertDefault r).1 && decide (r.size + s.base.objMd ≤ (s.seg 0).base.cacheSize),
    { s with base := (s.base.canInsertDefault r).2 })

/-- The function table set up by `LP_SFIFO_init`, LP_SFIFO.c:70-80; `LP_SFIFO_get_n_obj`, LP_SFIFO.c:438-445, adds up bytes.  Every eviction takes an object away or
sets a positive counter to 0, so twice the number of objects is enough fuel. -/
def algo : Algo State where
  find := find
  insert := insert
  evict := fun s _ => evict s
  remove := remove
  canInsert := canInsert
  occ := occ
  nObj := occ
  cacheSize := fun s => s.base.cacheSize
  md := fun s => s.base.objMd
  bump := fun s => { s with base := s.base.bump }
  fuel := fun s => 2 * count s

end Verif.LPSFIFO
