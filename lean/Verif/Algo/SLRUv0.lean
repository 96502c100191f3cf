import Verif.Algo.Queue
/-!
# SLRUv0: libCacheSim/cache/eviction/SLRUv0.c

The array `LRUs` of complete LRU caches is modelled as a function of the segment number; all uses in the C code are within
`0..n_seg-1`.
-/

namespace Verif.SLRUv0
open Verif

/-- `params->LRUs`, SLRUv0.c:17-21 -/
abbrev Segs := Nat → QState Unit

/-- Write one array element. -/
def upd (f : Segs) (i : Nat) (v : QState Unit) : Segs := fun j => if j = i then v else f j

/-- The cache and `SLRUv0_params_t`, SLRUv0.c:16-21; `occupied_byte` and `n_obj` of the outer `cache_t` are not used. -/
structure State where
  base : Base Unit
  /-- `n_seg` -/
  n : Nat
  seg : Segs

/-- `SLRUv0_init`, SLRUv0.c:62-104, for `n_seg` of at least 1 (0 divides by zero): `n_seg` LRU caches of `cache_size / n_seg` bytes each.
With metadata considered `obj_md_size` is 16 in the outer cache and in every LRU cache (SLRUv0.c:79-83, LRU.c:66-70).  The LRU
caches are created with the admission policy too but never consulted about admission. -/
def init (cacheSize md : Nat) (adm : Adm) (n : Nat) : State :=
  { base := Base.init cacheSize md adm, n := n, seg := fun _ => QState.init (cacheSize / n) md adm }

/-- `lru->occupied_byte + size + obj_md_size > lru->cache_size`, SLRUv0.c:195-197, 237-238, 415-417, in signed 64-bit arithmetic. -/
def full (q : QState Unit) (size md : Nat) : Bool := decide (q.base.occ + size + md > (q.base.cacheSize : Int))

/-- `while (full) SLRUv0_cool(cache, req, k)`, SLRUv0.c:195-198 and 417-419.  The fuel is the number of objects in the segment: each call takes
one away, and on an empty segment the call faults. -/
def makeRoom (cool : Segs → Res Segs) (k size md : Nat) : Nat → Segs → Res Segs
  | m, s =>
    if full (s k) size md then
      match m with
      | 0 => cool s >>= fun _ => .error .diverge
      | m + 1 => cool s >>= fun s' => makeRoom cool k size md m s'
    else .ok s

/-- `SLRUv0_cool`, SLRUv0.c:398-423: the lowest segment evicts; otherwise the oldest object moves to the next lower segment, after making room there. -/
def cool (md : Nat) : Nat → Segs → Res Segs
  | 0, s => (s 0).evictTail >>= fun q => .ok (upd s 0 q)
  | k + 1, s =>
    (s (k + 1)).tailObj >>= fun o =>
    (s (k + 1)).evictTail >>= fun q =>
    makeRoom (cool md k) k o.size md (s k).q.length (upd s (k + 1) q) >>= fun s1 =>
    (s1 k).insert () o.toReq >>= fun q' => .ok (upd s1 k q')

/-- The segment found by the loop of `SLRUv0_find`, SLRUv0.c:170-176. -/
def locate (s : State) (id : ObjId) : Option Nat := (List.range s.n).find? (fun i => ((s.seg i).base.lookup id).isSome)

/-- `SLRUv0_find`, SLRUv0.c:165-207.  After a promotion the returned pointer is that of the freed object; the callers only compare it with NULL. -/
def find (s : State) (r : Req) (update : Bool) : Res (Bool × State) :=
  match locate s r.id with
  | none => .ok (false, s)
  | some i =>
    if update = false then .ok (true, s)
    else if i + 1 = s.n then .ok (true, s)
    else
      (s.seg i).remove r.id >>= fun x =>
      if ((upd s.seg i x.2 (i + 1)).base.lookup r.id).isSome then .error .assertFail
      else
        makeRoom (cool s.base.objMd (i + 1)) (i + 1) r.size s.base.objMd (s.seg (i + 1)).q.length (upd s.seg i x.2) >>= fun g =>
        (g (i + 1)).insert () r >>= fun q => .ok (true, { s with seg := upd g (i + 1) q })

/-- The segment chosen by `SLRUv0_evict`, SLRUv0.c:277-284: the first with occupied bytes, segment 0 if there is none. -/
def lowest (s : State) : Option Nat := (List.range s.n).find? (fun i => decide ((s.seg i).base.occ > 0))

/-- `SLRUv0_evict`, SLRUv0.c:274-288. -/
def evict (s : State) : Res State :=
  (s.seg ((lowest s).getD 0)).evictTail >>= fun q => .ok { s with seg := upd s.seg ((lowest s).getD 0) q }

/-- `SLRUv0_to_evict`, SLRUv0.c:254-263. -/
def toEvict (s : State) : Option ObjId :=
  match lowest s with
  | none => none
  | some i => (s.seg i).q.getLast?

/-- The first loop of `SLRUv0_insert`, SLRUv0.c:227-233: the lowest segment with room. -/
def pick (s : State) (r : Req) : Option Nat := (List.range s.n).find? (fun i => !full (s.seg i) r.size s.base.objMd)

/-- Number of objects in all segments. -/
def count (s : State) : Nat := ((List.range s.n).map (fun i => (s.seg i).q.length)).sum

/-- The second loop of `SLRUv0_insert`, SLRUv0.c:237-240. -/
def insertLoop (r : Req) : Nat → State → Res State
  | m, s =>
    if full (s.seg 0) r.size s.base.objMd then
      match m with
      | 0 => evict s >>= fun _ => .error .diverge
      | m + 1 => evict s >>= fun s' => insertLoop r m s'
    else .ok s

/-- Insert into segment `k`, SLRUv0.c:231, 241. -/
def insertAt (s : State) (r : Req) (k : Nat) : Res State :=
  (s.seg k).insert () r >>= fun q => .ok { s with seg := upd s.seg k q }

/-- `SLRUv0_insert`, SLRUv0.c:220-242 (the assignment of `n_req` is for eviction age tracking only). -/
def insert (s : State) (r : Req) : Res State :=
  match pick s r with
  | some k => insertAt s r k
  | none => insertLoop r (count s) s >>= fun s' => insertAt s' r 0

/-- The loop of `SLRUv0_remove`, SLRUv0.c:305-310, from segment `i` on, with `m` segments left. -/
def removeFrom (s : State) (id : ObjId) : Nat → Nat → Res (Bool × State)
  | _, 0 => .ok (false, s)
  | i, m + 1 =>
    (s.seg i).remove id >>= fun x =>
    if x.1 then .ok (true, { s with seg := upd s.seg i x.2 }) else removeFrom s id (i + 1) m

/-- `SLRUv0_remove`, SLRUv0.c:303-312. -/
def remove (s : State) (id : ObjId) : Res (Bool × State) := removeFrom s id 0 s.n

/-- `SLRUv0_can_insert`, SLRUv0.c:315-320. -/
def canInsert (s : State) (r : Req) : Bool × State :=
  ((s.base.canInsertDefault r).1 && decide (r.size + s.base.objMd ≤ (s.seg 0).base.cacheSize),
    { s with base := (s.base.canInsertDefault r).2 })

/-- The function table set up by `SLRUv0_init`, SLRUv0.c:67-77; `SLRUv0_get_occupied_byte` and `SLRUv0_get_n_obj`, SLRUv0.c:322-338. -/
def algo : Algo State where
  find := find
  insert := insert
  evict := fun s _ => evict s
  remove := remove
  canInsert := canInsert
  occ := fun s => ((List.range s.n).map (fun i => (s.seg i).base.occ)).sum
  nObj := fun s => ((List.range s.n).map (fun i => (s.seg i).base.nObj)).sum
  cacheSize := fun s => s.base.cacheSize
  md := fun s => s.base.objMd
  bump := fun s => { s with base := s.base.bump }
  fuel := count

end Verif.SLRUv0
