import Verif.Base.Types
/-!
# LRUv0 (libCacheSim/cache/eviction/LRUv0.c)

LRU with a glib hash table and a glib queue. The keys of the hash table are the object ids, made into pointers; they are compared as they are (`g_direct_equal`), but hashed by `g_int64_hash`, which reads the eight
bytes the pointer points to (LRUv0.c:79-80). `mem a` says whether the program may read them at address `a`; what is there is taken not to change. Nodes have addresses that are not used again; sizes are below 2^32.
-/

namespace Verif.LRUv0
open Verif

/-- the fields of `cache_obj_t` that are used -/
structure VObj where
  id : ObjId
  size : Nat
deriving DecidableEq, Repr

/-- `LRUv0_params_t`, LRUv0.c:23-26, and the counters of the cache; `data` is the object of a node, `none` once it is freed -/
structure State where
  table : ObjId → Option Nat := fun _ => none
  list : List Nat := []
  data : Nat → Option VObj := fun _ => none
  fresh : Nat := 0
  occ : Int := 0
  nObj : Int := 0

/-- `g_int64_hash(GSIZE_TO_POINTER(id))` -/
def hash (mem : Nat → Bool) (id : ObjId) : Res Unit := if mem id then .ok () else .error .outOfBounds

/-- `LRUv0_find`, LRUv0.c:146-168 -/
def find (mem : Nat → Bool) (s : State) (r : Req) (upd : Bool) : Res (Bool × State) :=
  hash mem r.id >>= fun _ =>
  match s.table r.id with
  | none => .ok (false, s)
  | some a =>
    if upd then
      match s.data a with
      | none => .error .useAfterFree
      | some o =>
        if a ∈ s.list then
          .ok (true, { s with
            occ := s.occ - o.size + r.size
            data := fun x => if x = a then some { o with size := r.size } else s.data x
            list := s.list.erase a ++ [a] })
        else .error .notLinked
    else .ok (true, s)

/-- `LRUv0_insert`, LRUv0.c:181-195; `md` is `obj_md_size` -/
def insert (mem : Nat → Bool) (md : Nat) (s : State) (r : Req) : Res State :=
  hash mem r.id >>= fun _ =>
  .ok { s with
    occ := s.occ + (r.size + md : Nat)
    data := fun x => if x = s.fresh then some ⟨r.id, r.size⟩ else s.data x
    list := s.list ++ [s.fresh]
    table := fun i => if i = r.id then some s.fresh else s.table i
    fresh := s.fresh + 1 }

/-- `LRUv0_evict`, LRUv0.c:229-237, with `LRUv0_to_evict`, LRUv0.c:215-218: the node stays at the head of the queue -/
def evict (mem : Nat → Bool) (md : Nat) (s : State) : Res State :=
  match s.list with
  | [] => .error .nullDeref
  | a :: _ =>
    match s.data a with
    | none => .error .useAfterFree
    | some o =>
      if s.occ ≥ o.size then
        hash mem o.id >>= fun _ =>
        .ok { s with
          occ := s.occ - (o.size + md : Nat)
          table := fun i => if i = o.id then none else s.table i
          data := fun x => if x = a then none else s.data x }
      else .error .assertFail

/-- `while (cache->occupied_byte > cache->cache_size) LRUv0_evict`, LRUv0.c:121-122 -/
def shrink (mem : Nat → Bool) (md cs : Nat) : Nat → State → Res State
  | 0, s => if s.occ > cs then .error .diverge else .ok s
  | n + 1, s => if s.occ > cs then evict mem md s >>= shrink mem md cs n else .ok s

/-- `LRUv0_get`, LRUv0.c:116-128 -/
def get (mem : Nat → Bool) (md cs : Nat) (s : State) (r : Req) : Res (Bool × State) :=
  find mem s r true >>= fun p =>
  if r.size ≤ cs then
    (if p.1 then .ok p.2 else insert mem md p.2 r) >>= fun s1 => shrink mem md cs (s1.list.length + 1) s1 >>= fun s2 => .ok (p.1, s2)
  else .ok p

/-- `LRUv0_remove`, LRUv0.c:252-271 -/
def remove (mem : Nat → Bool) (md : Nat) (s : State) (id : ObjId) : Res (Bool × State) :=
  hash mem id >>= fun _ =>
  match s.table id with
  | none => .ok (false, s)
  | some a =>
    match s.data a with
    | none => .error .useAfterFree
    | some o =>
      if s.occ ≥ (o.size + md : Nat) then
        if a ∈ s.list then
          .ok (true, { s with
            occ := s.occ - (o.size + md : Nat)
            nObj := s.nObj - 1
            list := s.list.erase a
            table := fun i => if i = id then none else s.table i
            data := fun x => if x = a then none else s.data x })
        else .error .notLinked
      else .error .assertFail

/-- requests one after the other -/
def run (mem : Nat → Bool) (md cs : Nat) : State → List Req → Res (List Bool × State)
  | s, [] => .ok ([], s)
  | s, r :: rs => get mem md cs s r >>= fun p => run mem md cs p.2 rs >>= fun q => .ok (p.1 :: q.1, q.2)

end Verif.LRUv0
