import Verif.Algo.Queue
/-!
# SFIFO: libCacheSim/cache/eviction/fifo/SFIFO.c

The pointer arrays `fifo_heads`/`fifo_tails` are modelled as one list of object ids per segment (see
`Verif/Algo/Queue.lean`), the arrays as functions of the segment number; a segment number outside `0..n_seg-1` is the
fault `outOfBounds`.  The object fields `freq` and `last_access_vtime` are written but never read and are left out.
-/

namespace Verif.SFIFO
open Verif

/-- Write one array element. -/
def upd {α : Type} (f : Nat → α) (i : Nat) (v : α) : Nat → α := fun j => if j = i then v else f j

/-- `SFIFO_params_t`, SFIFO.c:57-64, and the cache; the union member of an object is `fifo_id` (cacheObj.h:107-111; an int8_t, so `n_seg` is
assumed to be at most 128). -/
structure State where
  base : Base Nat
  /-- `n_seg` -/
  nSeg : Nat
  /-- `per_seg_max_size` -/
  per : Nat
  /-- `fifo_heads`/`fifo_tails`: the list of each segment, head first -/
  q : Nat → List ObjId
  /-- `fifo_n_bytes` -/
  bytes : Nat → Int
  /-- `fifo_n_objs` -/
  objs : Nat → Int

/-- `SFIFO_init`, SFIFO.c:120-169, for `n_seg` of at least 1: the parameter `n-seg` (4 by default) is a parameter. -/
def init (cacheSize md : Nat) (adm : Adm) (nSeg : Nat) : State :=
  { base := Base.init cacheSize md adm, nSeg := nSeg, per := cacheSize / nSeg, q := fun _ => [], bytes := fun _ => 0,
    objs := fun _ => 0 }

/-- `obj->obj_size + cache->obj_md_size`: 32-bit unsigned arithmetic. -/
def sz (s : State) (o : Obj Nat) : Int := ((o.size + s.base.objMd) % u32 : Nat)

/-- Array access check. -/
def inRange (s : State) (i : Nat) : Res Unit := if i < s.nSeg then .ok () else .error .outOfBounds

/-- `SFIFO_to_evict`, SFIFO.c:287-295: the tail of the first segment with `fifo_n_bytes > 0`. -/
def toEvict (s : State) : Option ObjId :=
  match (List.range s.nSeg).find? (fun i => decide (s.bytes i > 0)) with
  | none => none
  | some i => (s.q i).getLast?

/-- The segment chosen by `SFIFO_evict`, SFIFO.c:310-316: the first whose list is not empty. -/
def lowest (s : State) : Option Nat := (List.range s.nSeg).find? (fun i => decide (s.q i ≠ []))

/-- `SFIFO_evict`, SFIFO.c:306-327: on an empty cache the arrays are read at index -1. -/
def evict (s : State) : Res State :=
  match lowest s with
  | none => .error .outOfBounds
  | some i =>
    qTail (s.q i) >>= fun id =>
    match s.base.lookup id with
    | none => .error .useAfterFree
    | some o =>
      qRemove (s.q i) id >>= fun q' =>
      s.base.evictBase id >>= fun b =>
      .ok { s with base := b, q := upd s.q i q', bytes := upd s.bytes i (s.bytes i - sz s o), objs := upd s.objs i (s.objs i - 1) }

/-- `SFIFO_cool` for `id > 0` up to the loop, SFIFO.c:431-441: the tail of segment `id` goes to the head of segment
`id - 1`; only `obj_size`, not `obj_md_size`, moves between the byte counters. -/
def moveDown (s : State) (id : Nat) : Res State :=
  qTail (s.q id) >>= fun x =>
  match s.base.lookup x with
  | none => .error .useAfterFree
  | some o =>
    qRemove (s.q id) x >>= fun q' =>
    qPrepend (s.q (id - 1)) x >>= fun q'' =>
    .ok { s with
      base := s.base.modify x (fun o => { o with mt := id - 1 })
      q := upd (upd s.q id q') (id - 1) q''
      bytes := upd (upd s.bytes id (s.bytes id - o.size)) (id - 1) (s.bytes (id - 1) + o.size)
      objs := upd (upd s.objs id (s.objs id - 1)) (id - 1) (s.objs (id - 1) + 1) }

/-- `fifo_n_bytes[i] > per_seg_max_size` -/
def over (s : State) (i : Nat) : Bool := decide (s.bytes i > (s.per : Int))

/-- The loop `while (fifo_n_bytes[id] > per_seg_max_size) SFIFO_cool(cache, req, id)`, SFIFO.c:444-446, with the body of
`SFIFO_cool` (SFIFO.c:425-447) unfolded.  The fuel bounds the recursion depth; running out of it is `diverge`. -/
def coolLoop : Nat → State → Nat → Res State
  | 0, s, i => if over s i then .error .diverge else .ok s
  | n + 1, s, i =>
    if over s i then
      (if i = 0 then evict s else moveDown s i >>= fun s1 => coolLoop n s1 (i - 1)) >>= fun s2 =>
      coolLoop n s2 i
    else .ok s

/-- `SFIFO_cool`, SFIFO.c:425-447. -/
def cool (n : Nat) (s : State) (i : Nat) : Res State :=
  if i = 0 then evict s else moveDown s i >>= fun s1 => coolLoop n s1 (i - 1)

/-- Take an object off its segment and off that segment's counters, SFIFO.c:479-482. -/
def unlink (s : State) (o : Obj Nat) : Res State :=
  inRange s o.mt >>= fun _ =>
  qRemove (s.q o.mt) o.id >>= fun q' =>
  .ok { s with q := upd s.q o.mt q', bytes := upd s.bytes o.mt (s.bytes o.mt - sz s o),
               objs := upd s.objs o.mt (s.objs o.mt - 1) }

/-- `SFIFO_promote_to_next_seg` below the top segment, SFIFO.c:479-489. -/
def moveUp (s : State) (o : Obj Nat) : Res State :=
  unlink s o >>= fun s1 =>
  inRange s (o.mt + 1) >>= fun _ =>
  qPrepend (s1.q (o.mt + 1)) o.id >>= fun q' =>
  .ok { s1 with
    base := s1.base.modify o.id (fun o => { o with mt := o.mt + 1 })
    q := upd s1.q (o.mt + 1) q'
    bytes := upd s1.bytes (o.mt + 1) (s1.bytes (o.mt + 1) + sz s o)
    objs := upd s1.objs (o.mt + 1) (s1.objs (o.mt + 1) + 1) }

/-- `SFIFO_promote_to_next_seg`, SFIFO.c:472-490. -/
def promote (s : State) (o : Obj Nat) : Res State := if o.mt + 1 = s.nSeg then .ok s else moveUp s o

/-- The loop of `SFIFO_find`, SFIFO.c:222-224: the segment is read from the object in every iteration, so the object must
still exist. -/
def findLoop (fuel : Nat) : Nat → State → ObjId → Res State
  | n, s, id =>
    match s.base.lookup id with
    | none => .error .useAfterFree
    | some o =>
      if over s o.mt then
        match n with
        | 0 => .error .diverge
        | n + 1 => cool fuel s o.mt >>= fun s' => findLoop fuel n s' id
      else .ok s

/-- Upper bound for the number of moves: every object can move down at most `n_seg` times. -/
def moves (s : State) : Nat := s.base.tbl.length * s.nSeg + 1

/-- `SFIFO_find`, SFIFO.c:209-227: uses `hashtable_find`, not `cache_find_base`. -/
def find (s : State) (r : Req) (update : Bool) : Res (Bool × State) :=
  match s.base.lookup r.id with
  | none => .ok (false, s)
  | some o =>
    if update = false then .ok (true, s)
    else
      promote s o >>= fun s1 =>
      findLoop (moves s1) (moves s1) s1 r.id >>= fun s2 => .ok (true, s2)

/-- The first loop of `SFIFO_insert`, SFIFO.c:245-252: the lowest segment with room. -/
def pickSeg (s : State) (r : Req) : Option Nat :=
  (List.range s.nSeg).find? (fun i => decide (s.bytes i + r.size + s.base.objMd ≤ (s.per : Int)))

/-- The loop of `SFIFO_insert`, SFIFO.c:256-259. -/
def insertLoop (r : Req) : Nat → State → Res State
  | n, s =>
    if s.base.occ + r.size + s.base.objMd > (s.base.cacheSize : Int) then
      match n with
      | 0 => .error .diverge
      | n + 1 => evict s >>= fun s' => insertLoop r n s'
    else .ok s

/-- Link the new object into segment `k`, SFIFO.c:264-272: `req->obj_size` is added in 64 bits. -/
def insertAt (s : State) (r : Req) (k : Nat) : Res State :=
  qPrepend (s.q k) r.id >>= fun q' =>
  .ok { s with
    base := s.base.insertBase k r
    q := upd s.q k q'
    bytes := upd s.bytes k (s.bytes k + (r.size + s.base.objMd : Nat))
    objs := upd s.objs k (s.objs k + 1) }

/-- `SFIFO_insert`, SFIFO.c:240-275. -/
def insert (s : State) (r : Req) : Res State :=
  match pickSeg s r with
  | some k => insertAt s r k
  | none => insertLoop r s.base.tbl.length s >>= fun s' => insertAt s' r 0

/-- `SFIFO_remove`, SFIFO.c:342-357: `fifo_n_bytes` and `fifo_n_objs` are not updated. -/
def remove (s : State) (id : ObjId) : Res (Bool × State) :=
  match s.base.lookup id with
  | none => .ok (false, s)
  | some o =>
    inRange s o.mt >>= fun _ =>
    qRemove (s.q o.mt) id >>= fun q' =>
    s.base.removeObjBase id >>= fun b => .ok (true, { s with base := b, q := upd s.q o.mt q' })

/-- `SFIFO_can_insert`, SFIFO.c:411-416. -/
def canInsert (s : State) (r : Req) : Bool × State :=
  ((s.base.canInsertDefault r).1 && decide (r.size + s.base.objMd ≤ s.per),
    { s with base := (s.base.canInsertDefault r).2 })

/-- The function table set up by `SFIFO_init`, SFIFO.c:123-133. -/
def algo : Algo State where
  find := find
  insert := insert
  evict := fun s _ => evict s
  remove := remove
  canInsert := canInsert
  occ := fun s => s.base.occ
  nObj := fun s => s.base.nObj
  cacheSize := fun s => s.base.cacheSize
  md := fun s => s.base.objMd
  bump := fun s => { s with base := s.base.bump }
  fuel := fun s => s.base.tbl.length

end Verif.SFIFO
