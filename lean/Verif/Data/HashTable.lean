import Verif.Base.Types
/-!
# The chained hash table, libCacheSim/dataStructure/hashtable/chainedHashTableV2.c

`cache_obj_t`s live on a heap; the table sees their `obj_id` and `hash_next`.  The hash function `H` (XXH3 in the default
build) is a parameter: everything is proved for every `H`.  Allocation of an object is represented by the address `malloc`
returns, which is an argument of `insert`.  Memory exhaustion is not modelled.  The counters of chain lengths used for
log messages are left out.  A chain walk of more than `n_obj` steps is reported as `diverge`.
-/

namespace Verif.HashTable

abbrev Addr := Nat
/-- `cache_obj_t *` -/
abbrev Ptr := Option Addr

/-- `obj_id` and `hash_next` of `cache_obj_t`, cacheObj.h:137-150 -/
structure Cell where
  id : ObjId
  next : Ptr
deriving DecidableEq, Repr

abbrev Heap := Addr → Option Cell

/-- `hashtable_t`, hashtableStruct.h:22-47: `ptr_table`, `n_obj`, `hashpower`, `external_obj`, and the heap.
`n_obj` is an `Int` (`uint64_t` in C; a decrement below zero would show). -/
structure T where
  h : Heap
  tab : Nat → Ptr
  n : Int
  pow : Nat
  ext : Bool

/-- `hashsize(n)`, hashtableStruct.h:16 -/
def hashsize (n : Nat) : Nat := 1 <<< n
/-- `hashmask(n)`, hashtableStruct.h:18 -/
def hashmask (n : Nat) : Nat := hashsize n - 1

/-- `*p` -/
def rd (h : Heap) (p : Ptr) : Res Cell :=
  match p with
  | none => .error .nullDeref
  | some x => match h x with
    | none => .error .useAfterFree
    | some c => .ok c

def put (h : Heap) (x : Addr) (c : Cell) : Heap := fun y => if y = x then some c else h y
/-- `free` -/
def free (h : Heap) (x : Addr) : Heap := fun y => if y = x then none else h y
def setTab (tab : Nat → Ptr) (i : Nat) (p : Ptr) : Nat → Ptr := fun j => if j = i then p else tab j

/-- `create_chained_hashtable_v2`, chainedHashTableV2.c:88-109.  (`my_malloc_n` is `calloc` in the default build, mem.h, so the table is
zeroed although the `memset` of line 102 covers one entry only.) -/
def create (h : Heap) (pow : Nat) (ext : Bool) : T := { h := h, tab := fun _ => none, n := 0, pow := pow, ext := ext }

/-- `add_to_bucket`, 59-79. -/
def addToBucket (H : ObjId → Nat) (t : T) (a : Addr) : Res T :=
  rd t.h (some a) >>= fun c =>
  let hv := H c.id &&& hashmask t.pow
  match t.tab hv with
  | none => .ok { t with tab := setTab t.tab hv (some a) }
  | some hp => .ok { t with h := put t.h a { c with next := some hp }, tab := setTab t.tab hv (some a) }

/-- the inner `while` of `_chained_hashtable_expand_v2`, 349-354 -/
def expandChain (H : ObjId → Nat) : Nat → T → Ptr → Res T
  | _, t, none => .ok t
  | 0, _, some _ => .error .diverge
  | k + 1, t, some a =>
    rd t.h (some a) >>= fun c =>
    addToBucket H { t with h := put t.h a { c with next := none } } a >>= fun t' =>
    expandChain H k t' c.next

/-- the `for` of `_chained_hashtable_expand_v2`, 346-355, over the given bucket numbers -/
def expandLoop (H : ObjId → Nat) (old : Nat → Ptr) (fuel : Nat) : T → List Nat → Res T
  | t, [] => .ok t
  | t, i :: is => expandChain H fuel t (old i) >>= fun t' => expandLoop H old fuel t' is

/-- `_chained_hashtable_expand_v2`, 326-357. -/
def expand (H : ObjId → Nat) (t : T) : Res T :=
  expandLoop H t.tab (t.n.toNat) { t with tab := fun _ => none, pow := t.pow + 1 } (List.range (hashsize t.pow))

/-- `chained_hashtable_find_obj_id_v2`, 111-125: the chain walk -/
def findChain (h : Heap) (id : ObjId) : Nat → Ptr → Res Ptr
  | _, none => .ok none
  | 0, some _ => .error .diverge
  | k + 1, some a => rd h (some a) >>= fun c => if c.id = id then .ok (some a) else findChain h id k c.next

/-- `chained_hashtable_find_obj_id_v2`, 111-125. -/
def find (H : ObjId → Nat) (t : T) (id : ObjId) : Res Ptr :=
  findChain t.h id t.n.toNat (t.tab (H id &&& hashmask t.pow))

/-- `chained_hashtable_insert_obj_v2`, 152-162: the object at `a` exists already. -/
def insertObj (H : ObjId → Nat) (t : T) (a : Addr) : Res T :=
  (if t.n > hashsize t.pow then expand H t else .ok t) >>= fun t =>
  addToBucket H t a >>= fun t =>
  .ok { t with n := t.n + 1 }

/-- `chained_hashtable_insert_v2`, 138-149: `malloc` returns `a`; `create_cache_obj_from_request` (cacheObj.c:43-49) zeroes the object, so
`hash_next` is NULL. -/
def insert (H : ObjId → Nat) (t : T) (a : Addr) (id : ObjId) : Res T :=
  (if t.n > hashsize t.pow then expand H t else .ok t) >>= fun t =>
  addToBucket H { t with h := put t.h a ⟨id, none⟩ } a >>= fun t =>
  .ok { t with n := t.n + 1 }

/-- `while (cur_obj != NULL && cur_obj->hash_next != cache_obj) cur_obj = cur_obj->hash_next;` of 178-181, 217-220 -/
def predChain (h : Heap) (a : Addr) : Nat → Ptr → Res Ptr
  | _, none => .ok none
  | 0, some _ => .error .diverge
  | k + 1, some x => rd h (some x) >>= fun c => if c.next = some a then .ok (some x) else predChain h a k c.next

/-- `if (!hashtable->external_obj) free_cache_obj(cache_obj);` -/
def release (t : T) (a : Addr) : T := if t.ext then t else { t with h := free t.h a }

/-- `cur_obj->hash_next = v` -/
def setNext (h : Heap) (p : Ptr) (v : Ptr) : Res Heap :=
  match p with
  | none => .error .nullDeref
  | some x => match h x with
    | none => .error .useAfterFree
    | some c => .ok (put h x { c with next := v })

/-- `chained_hashtable_delete_v2`, 165-200. -/
def delete (H : ObjId → Nat) (t : T) (a : Addr) : Res T :=
  let fuel := t.n.toNat
  let t := { t with n := t.n - 1 }
  rd t.h (some a) >>= fun c =>
  let hv := H c.id &&& hashmask t.pow
  if t.tab hv = some a then .ok (release { t with tab := setTab t.tab hv c.next } a)
  else
    predChain t.h a fuel (t.tab hv) >>= fun cur =>
    setNext t.h cur c.next >>= fun h =>
    .ok (release { t with h := h } a)

/-- `chained_hashtable_try_delete_v2`, 202-248. -/
def tryDelete (H : ObjId → Nat) (t : T) (a : Addr) : Res (Bool × T) :=
  rd t.h (some a) >>= fun c =>
  let hv := H c.id &&& hashmask t.pow
  if t.tab hv = some a then .ok (true, release { t with tab := setTab t.tab hv c.next, n := t.n - 1 } a)
  else
    predChain t.h a t.n.toNat (t.tab hv) >>= fun cur =>
    match cur with
    | some _ => setNext t.h cur c.next >>= fun h => .ok (true, release { t with h := h, n := t.n - 1 } a)
    | none => .ok (false, t)

/-- the `do … while` of `chained_hashtable_delete_obj_id_v2`, 281-284: (prev_obj, cur_obj) when it stops -/
def idChain (h : Heap) (id : ObjId) : Nat → Ptr → Res (Ptr × Ptr)
  | 0, _ => .error .diverge
  | k + 1, cur =>
    rd h cur >>= fun c =>
    match c.next with
    | none => .ok (cur, none)
    | some y => rd h (some y) >>= fun d => if d.id = id then .ok (cur, some y) else idChain h id k (some y)

/-- `chained_hashtable_delete_obj_id_v2`, 264-295. -/
def deleteObjId (H : ObjId → Nat) (t : T) (id : ObjId) : Res (Bool × T) :=
  let hv := H id &&& hashmask t.pow
  match t.tab hv with
  | none => .ok (false, t)
  | some a =>
    rd t.h (some a) >>= fun c =>
    if c.id = id then
      let t := release { t with tab := setTab t.tab hv c.next } a
      .ok (true, { t with n := t.n - 1 })
    else
      idChain t.h id t.n.toNat (some a) >>= fun pc =>
      match pc.2 with
      | some y =>
        rd t.h (some y) >>= fun d =>
        setNext t.h pc.1 d.next >>= fun h =>
        let t := release { t with h := h } y
        .ok (true, { t with n := t.n - 1 })
      | none => .ok (false, t)

/-- `chained_hashtable_rand_obj_v2`, 297-302, for the given stream of `next_rand()` values. -/
def randObj (t : T) : List Nat → Res Addr
  | [] => .error .diverge
  | v :: vs => match t.tab (v &&& hashmask t.pow) with
    | some a => .ok a
    | none => randObj t vs

/-- `chained_hashtable_foreach_v2`, 304-315, inner loop: the objects visited -/
def visitChain (h : Heap) : Nat → Ptr → Res (List Addr)
  | _, none => .ok []
  | 0, some _ => .error .diverge
  | k + 1, some a => rd h (some a) >>= fun c => visitChain h k c.next >>= fun l => .ok (a :: l)

/-- `chained_hashtable_foreach_v2`, 304-315, for a callback that does not modify the table: the objects visited, in order. -/
def visitLoop (t : T) : List Nat → Res (List Addr)
  | [] => .ok []
  | i :: is => visitChain t.h t.n.toNat (t.tab i) >>= fun l => visitLoop t is >>= fun l' => .ok (l ++ l')

/-- `chained_hashtable_foreach_v2`, 304-315. -/
def visit (t : T) : Res (List Addr) := visitLoop t (List.range (hashsize t.pow))

end Verif.HashTable
