import Verif.Algo.Queue
/-!
# SFIFOv0: libCacheSim/cache/eviction/fifo/SFIFOv0.c

The array `FIFOs` of complete FIFO caches is modelled as a function of the queue number; all uses in the C code are within
`0..n_queues-1`.  `misc.next_access_vtime` is written but (without `USE_BELADY`, which is not defined) never used for a decision, and is left out
where the C code assigns it after an insertion or a hit.
-/

namespace Verif.SFIFOv0
open Verif

/-- `params->FIFOs`, SFIFOv0.c:27-32 -/
abbrev Segs := Nat → QState Unit

/-- Write one array element. -/
def upd (f : Segs) (i : Nat) (v : QState Unit) : Segs := fun j => if j = i then v else f j

/-- The queues together with the one shared temporary request `req_local`, SFIFOv0.c:27-32. -/
structure Queues where
  seg : Segs
  loc : Req

/-- The cache and `SFIFOv0_params_t`; `occupied_byte` and `n_obj` of the outer `cache_t` are not used. -/
structure State where
  base : Base Unit
  /-- `n_queues` -/
  n : Nat
  qs : Queues

/-- `SFIFOv0_init`, SFIFOv0.c:73-117, for `n_queues` of at least 1 (0 divides by zero): `n_queues` FIFO caches of `cache_size / n_queues` bytes each.
`obj_md_size` is 0 in the outer cache and in every FIFO cache (SFIFOv0.c:89, FIFO.c:63). -/
def init (cacheSize : Nat) (adm : Adm) (n : Nat) : State :=
  { base := Base.init cacheSize 0 adm, n := n, qs := { seg := fun _ => QState.init (cacheSize / n) 0 adm, loc := { id := 0, size := 0, next := -2 } } }

/-- `fifo->occupied_byte + size + obj_md_size > fifo->cache_size`, in signed 64-bit arithmetic. -/
def full (q : QState Unit) (size md : Nat) : Bool := decide (q.base.occ + size + md > (q.base.cacheSize : Int))

/-- `while (full) SFIFOv0_cool(cache, req, k)`, SFIFOv0.c:190-193 and 445-447.  The fuel is the number of objects in the queue: each call takes one away, and on an empty queue the call
faults. -/
def makeRoom (cool : Queues → Res Queues) (k size md : Nat) : Nat → Queues → Res Queues
  | m, s =>
    if full (s.seg k) size md then
      match m with
      | 0 => cool s >>= fun _ => .error .diverge
      | m + 1 => cool s >>= fun s' => makeRoom cool k size md m s'
    else .ok s

/-- `SFIFOv0_cool`, SFIFOv0.c:426-450: the lowest queue evicts; otherwise the oldest object is copied to `req_local` and evicted, room is made in the next lower
queue, and `req_local`, whatever it holds by then, is inserted there. -/
def cool (md : Nat) : Nat → Queues → Res Queues
  | 0, s => (s.seg 0).evictTail >>= fun q => .ok { s with seg := upd s.seg 0 q }
  | k + 1, s =>
    (s.seg (k + 1)).tailObj >>= fun o =>
    (s.seg (k + 1)).evictTail >>= fun q =>
    makeRoom (cool md k) k o.size md (s.seg k).q.length { seg := upd s.seg (k + 1) q, loc := o.toReq } >>= fun s1 =>
    (s1.seg k).insert () s1.loc >>= fun q' => .ok { s1 with seg := upd s1.seg k q' }

/-- The queue found by the loop of `SFIFOv0_find`, SFIFOv0.c:179-183. -/
def locate (s : State) (id : ObjId) : Option Nat := (List.range s.n).find? (fun i => ((s.qs.seg i).base.lookup id).isSome)

/-- `SFIFOv0_find`, SFIFOv0.c:174-206: the argument `update_cache` is not looked at.  After a promotion the returned pointer is that of the freed object; the
callers only compare it with NULL. -/
def find (s : State) (r : Req) (_update : Bool) : Res (Bool × State) :=
  match locate s r.id with
  | none => .ok (false, s)
  | some i =>
    if i + 1 = s.n then .ok (true, s)
    else
      (s.qs.seg i).remove r.id >>= fun x =>
      makeRoom (cool s.base.objMd (i + 1)) (i + 1) r.size s.base.objMd (s.qs.seg (i + 1)).q.length { s.qs with seg := upd s.qs.seg i x.2 } >>= fun g =>
      (g.seg (i + 1)).insert () r >>= fun q => .ok (true, { s with qs := { g with seg := upd g.seg (i + 1) q } })

/-- The queue chosen by `SFIFOv0_evict`, SFIFOv0.c:308-310: the first with occupied bytes. -/
def lowest (s : State) : Option Nat := (List.range s.n).find? (fun i => decide ((s.qs.seg i).base.occ > 0))

/-- `SFIFOv0_evict`, SFIFOv0.c:288-315: does nothing if no queue has occupied bytes. -/
def evict (s : State) : Res State :=
  match lowest s with
  | none => .ok s
  | some i => (s.qs.seg i).evictTail >>= fun q => .ok { s with qs := { s.qs with seg := upd s.qs.seg i q } }

/-- `SFIFOv0_to_evict`, SFIFOv0.c:249-276. -/
def toEvict (s : State) : Option ObjId :=
  match lowest s with
  | none => none
  | some i => (s.qs.seg i).q.getLast?

/-- The loop of `SFIFOv0_insert`, SFIFOv0.c:222-230: the lowest queue with room. -/
def pick (s : State) (r : Req) : Option Nat := (List.range s.n).find? (fun i => !full (s.qs.seg i) r.size s.base.objMd)

/-- `SFIFOv0_insert`, SFIFOv0.c:218-237: the lowest queue with room, otherwise the lowest queue. -/
def insert (s : State) (r : Req) : Res State :=
  (s.qs.seg ((pick s r).getD 0)).insert () r >>= fun q => .ok { s with qs := { s.qs with seg := upd s.qs.seg ((pick s r).getD 0) q } }

/-- The loop of `SFIFOv0_remove`, SFIFOv0.c:333-338, from queue `i` on, with `m` queues left. -/
def removeFrom (s : State) (id : ObjId) : Nat → Nat → Res (Bool × State)
  | _, 0 => .ok (false, s)
  | i, m + 1 =>
    (s.qs.seg i).remove id >>= fun x =>
    if x.1 then .ok (true, { s with qs := { s.qs with seg := upd s.qs.seg i x.2 } }) else removeFrom s id (i + 1) m

/-- `SFIFOv0_remove`, SFIFOv0.c:331-340. -/
def remove (s : State) (id : ObjId) : Res (Bool × State) := removeFrom s id 0 s.n

/-- `SFIFOv0_can_insert`, SFIFOv0.c:343-348. -/
def canInsert (s : State) (r : Req) : Bool × State :=
  ((s.base.canInsertDefault r).1 && decide (r.size + s.base.objMd ≤ (s.qs.seg 0).base.cacheSize),
    { s with base := (s.base.canInsertDefault r).2 })

/-- Number of objects in all queues. -/
def count (s : State) : Nat := ((List.range s.n).map (fun i => (s.qs.seg i).q.length)).sum

/-- The function table set up by `SFIFOv0_init`, SFIFOv0.c:77-87; `SFIFOv0_get_occupied_byte` and `SFIFOv0_get_n_obj`, SFIFOv0.c:350-366. -/
def algo : Algo State where
  find := find
  insert := insert
  evict := fun s _ => evict s
  remove := remove
  canInsert := canInsert
  occ := fun s => ((List.range s.n).map (fun i => (s.qs.seg i).base.occ)).sum
  nObj := fun s => ((List.range s.n).map (fun i => (s.qs.seg i).base.nObj)).sum
  cacheSize := fun s => s.base.cacheSize
  md := fun s => s.base.objMd
  bump := fun s => { s with base := s.base.bump }
  fuel := count

end Verif.SFIFOv0
