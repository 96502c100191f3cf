import Verif.Algo.Queue
/-!
# SLRU: libCacheSim/cache/eviction/SLRU.c

The pointer arrays `lru_heads`/`lru_tails` are modelled as one list of object ids per segment (see
`Verif/Algo/Queue.lean`), the arrays as functions of the segment number; a segment number outside `0..n_seg-1` is the
fault `outOfBounds`.
-/

namespace Verif.SLRU
open Verif

/-- Write one array element. -/
def upd {α : Type} (f : Nat → α) (i : Nat) (v : α) : Nat → α := fun j => if j = i then v else f j

/-- `SLRU_params_t`, SLRU.c:22-31, and the cache; the union member of an object is `lru_id` (cacheObj.h:97-99). -/
structure State where
  base : Base Nat
  /-- `n_seg` -/
  nSeg : Nat
  /-- `lru_max_n_bytes` -/
  lim : Nat → Nat
  /-- `lru_heads`/`lru_tails`: the list of each segment, head first -/
  q : Nat → List ObjId
  /-- `lru_n_bytes` -/
  bytes : Nat → Int
  /-- `lru_n_objs` -/
  objs : Nat → Int

/-- `SLRU_init`, SLRU.c:103-191.  The segment limits are a parameter: by default `cache_size / n_seg` each
(`SLRU.evenLimits`), otherwise derived from the user's ratios with floating point arithmetic (SLRU.c:440-455, not
modelled; every theorem holds for all limits). -/
def init (cacheSize md : Nat) (adm : Adm) (nSeg : Nat) (lim : Nat → Nat) : State :=
  { base := Base.init cacheSize md adm, nSeg := nSeg, lim := lim, q := fun _ => [], bytes := fun _ => 0,
    objs := fun _ => 0 }

/-- The default limits, SLRU.c:132-139. -/
def evenLimits (cacheSize nSeg : Nat) : Nat → Nat := fun _ => cacheSize / nSeg

/-- `obj->obj_size + cache->obj_md_size`: 32-bit unsigned arithmetic. -/
def sz (s : State) (o : Obj Nat) : Int := ((o.size + s.base.objMd) % u32 : Nat)

/-- Array access check. -/
def inRange (s : State) (i : Nat) : Res Unit := if i < s.nSeg then .ok () else .error .outOfBounds

/-- The segment chosen by `SLRU_to_evict`, SLRU.c:337-341: the first with `lru_n_bytes > 0`. -/
def lowest (s : State) : Option Nat := (List.range s.nSeg).find? (fun i => decide (s.bytes i > 0))

/-- `SLRU_to_evict`, SLRU.c:334-347: `none` is NULL (no segment, or `lru_tails[i] == NULL`). -/
def toEvict (s : State) : Option ObjId :=
  match lowest s with
  | none => none
  | some i => (s.q i).getLast?

/-- Take an object off its segment and off that segment's counters: SLRU.c:363-367, 521-523. -/
def unlink (s : State) (o : Obj Nat) : Res State :=
  inRange s o.mt >>= fun _ =>
  qRemove (s.q o.mt) o.id >>= fun q' =>
  .ok { s with q := upd s.q o.mt q', bytes := upd s.bytes o.mt (s.bytes o.mt - sz s o),
               objs := upd s.objs o.mt (s.objs o.mt - 1) }

/-- `SLRU_evict`, SLRU.c:358-369: reads through the pointer returned by `SLRU_to_evict` without checking it. -/
def evict (s : State) : Res State :=
  match toEvict s with
  | none => .error .nullDeref
  | some id =>
    match s.base.lookup id with
    | none => .error .useAfterFree
    | some o =>
      unlink s o >>= fun s1 =>
      s1.base.evictBase id >>= fun b => .ok { s1 with base := b }

/-- `SLRU_cool` for `id > 0` up to the loop, SLRU.c:493-503: the tail of segment `id` goes to the head of segment
`id - 1`; only `obj_size`, not `obj_md_size`, moves between the byte counters. -/
def moveDown (s : State) (id : Nat) : Res State :=
  qTail (s.q id) >>= fun x =>
  match s.base.lookup x with
  | none => .error .useAfterFree
  | some o =>
    qRemove (s.q id) x >>= fun q' =>
    qPrepend (s.q (id - 1)) x >>= fun q'' =>
    .ok { s with
      base := s.base.modify x (fun o => { o with mt := id - 1 })
      q := upd (upd s.q id q') (id - 1) q''
      bytes := upd (upd s.bytes id (s.bytes id - o.size)) (id - 1) (s.bytes (id - 1) + o.size)
      objs := upd (upd s.objs id (s.objs id - 1)) (id - 1) (s.objs (id - 1) + 1) }

/-- `lru_n_bytes[i] > lru_max_n_bytes[i]` -/
def over (s : State) (i : Nat) : Bool := decide (s.bytes i > (s.lim i : Int))

/-- The loop `while (lru_n_bytes[id] > lru_max_n_bytes[id]) SLRU_cool(cache, req, id)`, SLRU.c:506-508, with the body of
`SLRU_cool` (SLRU.c:487-509) unfolded.  The fuel bounds the recursion depth; running out of it is `diverge`. -/
def coolLoop : Nat → State → Nat → Res State
  | 0, s, i => if over s i then .error .diverge else .ok s
  | n + 1, s, i =>
    if over s i then
      (if i = 0 then evict s else moveDown s i >>= fun s1 => coolLoop n s1 (i - 1)) >>= fun s2 =>
      coolLoop n s2 i
    else .ok s

/-- `SLRU_cool`, SLRU.c:487-509. -/
def cool (n : Nat) (s : State) (i : Nat) : Res State :=
  if i = 0 then evict s else moveDown s i >>= fun s1 => coolLoop n s1 (i - 1)

/-- `SLRU_promote_to_next_seg`, SLRU.c:515-530. -/
def promote (s : State) (o : Obj Nat) : Res State :=
  unlink s o >>= fun s1 =>
  inRange s (o.mt + 1) >>= fun _ =>
  qPrepend (s1.q (o.mt + 1)) o.id >>= fun q' =>
  .ok { s1 with
    base := s1.base.modify o.id (fun o => { o with mt := o.mt + 1 })
    q := upd s1.q (o.mt + 1) q'
    bytes := upd s1.bytes (o.mt + 1) (s1.bytes (o.mt + 1) + sz s o)
    objs := upd s1.objs (o.mt + 1) (s1.objs (o.mt + 1) + 1) }

/-- The loop of `SLRU_find`, SLRU.c:264-268: the segment is read from the object in every iteration, so the object must
still exist. -/
def findLoop (fuel : Nat) : Nat → State → ObjId → Res State
  | n, s, id =>
    match s.base.lookup id with
    | none => .error .useAfterFree
    | some o =>
      if over s o.mt then
        match n with
        | 0 => .error .diverge
        | n + 1 => cool fuel s o.mt >>= fun s' => findLoop fuel n s' id
      else .ok s

/-- Upper bound for the number of moves: every object can move down at most `n_seg` times. -/
def moves (s : State) : Nat := s.base.tbl.length * s.nSeg + 1

/-- `SLRU_find`, SLRU.c:240-273: uses `hashtable_find`, not `cache_find_base`. -/
def find (s : State) (r : Req) (update : Bool) : Res (Bool × State) :=
  match s.base.lookup r.id with
  | none => .ok (false, s)
  | some o =>
    if update = false then .ok (true, s)
    else if o.mt + 1 = s.nSeg then
      qMoveToHead (s.q o.mt) r.id >>= fun q' => .ok (true, { s with q := upd s.q o.mt q' })
    else
      promote s o >>= fun s1 =>
      findLoop (moves s1) (moves s1) s1 r.id >>= fun s2 => .ok (true, s2)

/-- The first loop of `SLRU_insert`, SLRU.c:292-298: the lowest segment with room. -/
def pickSeg (s : State) (r : Req) : Option Nat :=
  (List.range s.nSeg).find? (fun i => decide (s.bytes i + r.size + s.base.objMd ≤ (s.lim i : Int)))

/-- The loop of `SLRU_insert`, SLRU.c:302-305. -/
def insertLoop (r : Req) : Nat → State → Res State
  | n, s =>
    if s.base.occ + r.size + s.base.objMd > (s.base.cacheSize : Int) then
      match n with
      | 0 => .error .diverge
      | n + 1 => evict s >>= fun s' => insertLoop r n s'
    else .ok s

/-- Link the new object into segment `k`, SLRU.c:309-319: `req->obj_size` is added in 64 bits. -/
def insertAt (s : State) (r : Req) (k : Nat) : Res State :=
  qPrepend (s.q k) r.id >>= fun q' =>
  .ok { s with
    base := s.base.insertBase k r
    q := upd s.q k q'
    bytes := upd s.bytes k (s.bytes k + (r.size + s.base.objMd : Nat))
    objs := upd s.objs k (s.objs k + 1) }

/-- `SLRU_insert`, SLRU.c:286-322. -/
def insert (s : State) (r : Req) : Res State :=
  match pickSeg s r with
  | some k => insertAt s r k
  | none => insertLoop r s.base.tbl.length s >>= fun s' => insertAt s' r 0

/-- `SLRU_remove`, SLRU.c:384-397: `lru_n_bytes` and `lru_n_objs` are not updated. -/
def remove (s : State) (id : ObjId) : Res (Bool × State) :=
  match s.base.lookup id with
  | none => .ok (false, s)
  | some o =>
    inRange s o.mt >>= fun _ =>
    qRemove (s.q o.mt) id >>= fun q' =>
    s.base.removeObjBase id >>= fun b => .ok (true, { s with base := b, q := upd s.q o.mt q' })

/-- `SLRU_can_insert`, SLRU.c:473-478. -/
def canInsert (s : State) (r : Req) : Bool × State :=
  ((s.base.canInsertDefault r).1 && decide (r.size + s.base.objMd ≤ s.lim 0),
    { s with base := (s.base.canInsertDefault r).2 })

/-- The function table set up by `SLRU_init`, SLRU.c:107-115. -/
def algo : Algo State where
  find := find
  insert := insert
  evict := fun s _ => evict s
  remove := remove
  canInsert := canInsert
  occ := fun s => s.base.occ
  nObj := fun s => s.base.nObj
  cacheSize := fun s => s.base.cacheSize
  md := fun s => s.base.objMd
  bump := fun s => { s with base := s.base.bump }
  fuel := fun s => s.base.tbl.length

end Verif.SLRU
