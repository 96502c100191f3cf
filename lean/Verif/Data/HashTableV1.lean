import Verif.Base.Types
/-!
# The first chained hash table, libCacheSim/dataStructure/hashtable/chainedHashtable.c

Compiled in with `HASHTABLE_TYPE == CHAINED_HASHTABLE` (hashtable.h:17-37).  The table is an array of objects, not of pointers: the first object of every bucket lives in
the array itself, the others on the heap, so that objects change their addresses when the table grows and when the first object of a bucket is deleted.  Pointers of the caller
that were registered with `add_ptr_to_monitoring` are to be updated.

Simplifications: the chain that starts in the `hash_next` of a slot is a list of heap addresses with their objects; the objects have an id and a size only (the `queue` links
of the objects, which `_move_obj_to_new_loc` and `delete_obj_in_table` also update, are not modelled); memory exhaustion is not modelled; heap addresses are numbered in
order of allocation and never used again; the number of registered pointers is unbounded (`uint16_t` in C); `find_req`, which caches the hash value in the request,
is `find`; `count_chain_length`, the integrity checks and `free` are left out.  The hash function `H` is a parameter.
-/

namespace Verif.HashTableV1
open Verif

/-- `obj_id` and `obj_size` of `cache_obj_t`, cacheObj.h:137-150; the default is zeroed memory. -/
structure Cell where
  id : ObjId := 0
  size : Nat := 0
deriving DecidableEq, Repr

/-- Address of an object: element `hv` of the array that was in use after `gen` reallocations, or a heap address. -/
inductive Addr where
  | slot (gen hv : Nat)
  | node (a : Nat)
deriving DecidableEq, Repr

/-- an element of the array with the objects reached from its `hash_next` -/
structure Bucket where
  head : Cell := {}
  chain : List (Nat × Cell) := []

/-- `hashtable_t`, hashtableStruct.h:22-44 -/
structure T where
  pow : Nat
  /-- how often the array was reallocated -/
  gen : Nat := 0
  tab : Nat → Bucket := fun _ => {}
  n : Int := 0
  /-- the next heap address -/
  next : Nat := 0
  /-- the values of the registered pointers: `*monitored_ptrs[i]` -/
  ptrs : List (Option Addr) := []

/-- `hashsize(n)`, `hashmask(n)`, hashtableStruct.h:16-18 -/
def hashsize (n : Nat) : Nat := 1 <<< n
def hashmask (n : Nat) : Nat := hashsize n - 1

/-- `OBJ_EMPTY`, chainedHashtable.c:20 -/
def isEmpty (c : Cell) : Bool := c.size == 0

/-- a store to one element of the array (with its chain) -/
def setTab (tab : Nat → Bucket) (i : Nat) (b : Bucket) : Nat → Bucket := fun j => if j = i then b else tab j

/-- `update_monitored_ptr`, chainedHashtable.c:35-43 -/
def updatePtrs (ptrs : List (Option Addr)) (new : Option Addr) (old : Addr) : List (Option Addr) := ptrs.map (fun p => if p = some old then new else p)

/-- `create_chained_hashtable`, chainedHashtable.c:90-111 -/
def create (pow : Nat) : T := { pow := pow }

/-- the objects reached from an array element that is not empty, with their addresses -/
def entries (gen hv : Nat) (b : Bucket) : List (Addr × Cell) := (.slot gen hv, b.head) :: b.chain.map (fun x => (.node x.1, x.2))

/-- what a walk over one bucket visits: nothing if its first element is empty -/
def visible (gen hv : Nat) (b : Bucket) : List (Addr × Cell) := if isEmpty b.head then [] else entries gen hv b

/-- `chained_hashtable_foreach`, chainedHashtable.c:248-261: the objects it visits, in order -/
def visit (t : T) : List (Addr × Cell) := (List.range (hashsize t.pow)).flatMap (fun i => visible t.gen i (t.tab i))

/-- `*p` for a pointer of the caller: the object at the address, a fault if there is none any more -/
def rd (t : T) (a : Addr) : Res Cell :=
  match (visit t).find? (fun e => e.1 = a) with
  | none => .error .useAfterFree
  | some e => .ok e.2

/-- `chained_hashtable_find`, chainedHashtable.c:113-133 -/
def find (H : ObjId → Nat) (t : T) (id : ObjId) : Option Addr :=
  let hv := H id &&& hashmask t.pow
  ((visible t.gen hv (t.tab hv)).find? (fun e => e.2.id = id)).map Prod.fst

/-- `_move_into_new_table`, chainedHashtable.c:69-87, with `_move_obj_to_new_loc`, lines 45-52 -/
def moveInto (H : ObjId → Nat) (t : T) (e : Addr × Cell) : T :=
  let hv := H e.2.id &&& hashmask t.pow
  let b := t.tab hv
  if isEmpty b.head then
    { t with tab := setTab t.tab hv ⟨e.2, []⟩, ptrs := updatePtrs t.ptrs (some (.slot t.gen hv)) e.1 }
  else match e.1 with
    | .slot _ _ =>
      { t with tab := setTab t.tab hv ⟨b.head, b.chain ++ [(t.next, e.2)]⟩, next := t.next + 1, ptrs := updatePtrs t.ptrs (some (.node t.next)) e.1 }
    | .node a => { t with tab := setTab t.tab hv ⟨b.head, b.chain ++ [(a, e.2)]⟩ }

/-- `_chained_hashtable_expand`, chainedHashtable.c:284-317 -/
def expand (H : ObjId → Nat) (t : T) : T :=
  (visit t).foldl (moveInto H) { t with pow := t.pow + 1, gen := t.gen + 1, tab := fun _ => {} }

/-- growing before an insertion, chainedHashtable.c:177-179; the threshold is 1 (config.h:43) -/
def grow (H : ObjId → Nat) (t : T) : T := if t.n > (hashsize t.pow : Nat) then expand H t else t

/-- the rest of the insertion, chainedHashtable.c:181-200 -/
def put (H : ObjId → Nat) (t : T) (r : Req) : Addr × T :=
  let hv := H r.id &&& hashmask t.pow
  let b := t.tab hv
  let c : Cell := ⟨r.id, r.size % u32⟩
  if isEmpty b.head then (.slot t.gen hv, { t with tab := setTab t.tab hv ⟨c, b.chain⟩, n := t.n + 1 })
  else (.node t.next, { t with tab := setTab t.tab hv ⟨b.head, b.chain ++ [(t.next, c)]⟩, n := t.n + 1, next := t.next + 1 })

/-- `chained_hashtable_insert`, chainedHashtable.c:176-201 -/
def insert (H : ObjId → Nat) (t : T) (r : Req) : Addr × T := put H (grow H t) r

/-- `chained_hashtable_delete`, chainedHashtable.c:204-238, with `_move_obj_to_new_loc` and `delete_obj_in_table` -/
def delete (H : ObjId → Nat) (t : T) (a : Addr) : Res T :=
  rd t a >>= fun c =>
  let hv := H c.id &&& hashmask t.pow
  let b := t.tab hv
  if isEmpty b.head then .error .assertFail
  else if a = .slot t.gen hv then
    match b.chain with
    | (x, c') :: rest => .ok { t with n := t.n - 1, tab := setTab t.tab hv ⟨c', rest⟩, ptrs := updatePtrs t.ptrs (some a) (.node x) }
    | [] => .ok { t with n := t.n - 1, tab := setTab t.tab hv {}, ptrs := updatePtrs t.ptrs none a }
  else if b.chain.any (fun x => a = .node x.1) then
    .ok { t with n := t.n - 1, tab := setTab t.tab hv ⟨b.head, b.chain.eraseP (fun x => a = .node x.1)⟩, ptrs := updatePtrs t.ptrs none a }
  else .error .assertFail

/-- `chained_hashtable_add_ptr_to_monitoring`, chainedHashtable.c:330-346: from now on the table looks after a pointer with the value `p` -/
def watch (t : T) (p : Option Addr) : T := { t with ptrs := t.ptrs ++ [p] }

/-- `chained_hashtable_rand_obj`, chainedHashtable.c:240-246: the array is searched from a random position on; after a whole round without an object the loop never ends -/
def randFrom (t : T) : Nat → Nat → Res Addr
  | 0, _ => .error .diverge
  | m + 1, pos => if isEmpty (t.tab pos).head then randFrom t m ((pos + 1) &&& hashmask t.pow) else .ok (.slot t.gen pos)

def randObj (t : T) (v : Nat) : Res Addr := randFrom t (hashsize t.pow) (v &&& hashmask t.pow)

end Verif.HashTableV1
