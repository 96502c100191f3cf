import Verif.Base.Res
/-!
# The intrusive doubly linked list of libCacheSim/cache/cacheObj.c

The heap maps the address of a `cache_obj_t` to its `queue.prev`/`queue.next` members (cacheObj.h:137-150); `none` means
that nothing is allocated at the address.  `NULL` is `none : Ptr`.  A function that takes `cache_obj_t **head, **tail`
takes the pointed-to values and returns the new ones.  No caller in the repository passes a NULL `head` or `tail`
argument, so the tests `head != NULL`, `tail != NULL` are taken to be true.  `DEBUG_ASSERT` is compiled out.
-/

namespace Verif.DList

abbrev Addr := Nat
/-- `cache_obj_t *` -/
abbrev Ptr := Option Addr

/-- `struct { struct cache_obj *prev, *next; } queue`, cacheObj.h:139-142 -/
structure Cell where
  prev : Ptr
  next : Ptr
deriving DecidableEq, Repr

abbrev Heap := Addr → Option Cell

/-- `*p` (reads the cell) -/
def rd (h : Heap) (p : Ptr) : Res Cell :=
  match p with
  | none => .error .nullDeref
  | some x => match h x with
    | none => .error .useAfterFree
    | some c => .ok c

/-- overwrite the cell at an address -/
def put (h : Heap) (x : Addr) (c : Cell) : Heap := fun y => if y = x then some c else h y

/-- `p->queue.next = v` -/
def setNext (h : Heap) (p v : Ptr) : Res Heap :=
  match p with
  | none => .error .nullDeref
  | some x => match h x with
    | none => .error .useAfterFree
    | some c => .ok (put h x { c with next := v })

/-- `p->queue.prev = v` -/
def setPrev (h : Heap) (p v : Ptr) : Res Heap :=
  match p with
  | none => .error .nullDeref
  | some x => match h x with
    | none => .error .useAfterFree
    | some c => .ok (put h x { c with prev := v })

/-- The heap with the list's end pointers `*head`, `*tail`. -/
structure St where
  h : Heap
  hd : Ptr
  tl : Ptr

/-- `remove_obj_from_list`, cacheObj.c:57-76. -/
def remove (s : St) (x : Addr) : Res St :=
  rd s.h (some x) >>= fun c =>
  -- lines 59-62: `if (cache_obj == *head) { *head = next; if (next != NULL) next->prev = NULL; }`
  (if some x = s.hd ∧ c.next ≠ none then setPrev s.h c.next none else .ok s.h) >>= fun h =>
  let hd := if some x = s.hd then c.next else s.hd
  rd h (some x) >>= fun c =>
  -- lines 63-66
  (if some x = s.tl ∧ c.prev ≠ none then setNext h c.prev none else .ok h) >>= fun h =>
  let tl := if some x = s.tl then c.prev else s.tl
  rd h (some x) >>= fun c =>
  -- lines 68-69
  (if c.prev ≠ none then setNext h c.prev c.next else .ok h) >>= fun h =>
  rd h (some x) >>= fun c =>
  -- lines 71-72
  (if c.next ≠ none then setPrev h c.next c.prev else .ok h) >>= fun h =>
  -- lines 74-75
  setPrev h (some x) none >>= fun h =>
  setNext h (some x) none >>= fun h =>
  .ok ⟨h, hd, tl⟩

/-- `move_obj_to_tail`, cacheObj.c:84-122. -/
def moveToTail (s : St) (x : Addr) : Res St :=
  if s.hd = s.tl then
    -- lines 86-92, the asserts included
    if some x = s.hd then
      rd s.h (some x) >>= fun c => if c.next = none ∧ c.prev = none then .ok s else .error .assertFail
    else .error .assertFail
  else if some x = s.hd then
    -- lines 93-104
    rd s.h (some x) >>= fun c =>
    setPrev s.h c.next none >>= fun h =>
    setNext h s.tl (some x) >>= fun h =>
    setNext h (some x) none >>= fun h =>
    setPrev h (some x) s.tl >>= fun h =>
    .ok ⟨h, c.next, some x⟩
  else if some x = s.tl then .ok s
  else
    -- lines 109-121
    rd s.h (some x) >>= fun c =>
    setNext s.h c.prev c.next >>= fun h =>
    rd h (some x) >>= fun c =>
    setPrev h c.next c.prev >>= fun h =>
    setNext h s.tl (some x) >>= fun h =>
    setNext h (some x) none >>= fun h =>
    setPrev h (some x) s.tl >>= fun h =>
    .ok ⟨h, s.hd, some x⟩

/-- `move_obj_to_head`, cacheObj.c:130-173. -/
def moveToHead (s : St) (x : Addr) : Res St :=
  if s.hd = s.tl then .ok s
  else if some x = s.hd then .ok s
  else if some x = s.tl then
    -- lines 147-158
    rd s.h (some x) >>= fun c =>
    setNext s.h c.prev c.next >>= fun h =>
    rd h (some x) >>= fun c =>
    setPrev h s.hd (some x) >>= fun h =>
    setPrev h (some x) none >>= fun h =>
    setNext h (some x) s.hd >>= fun h =>
    .ok ⟨h, some x, c.prev⟩
  else
    -- lines 160-172
    rd s.h (some x) >>= fun c =>
    setNext s.h c.prev c.next >>= fun h =>
    rd h (some x) >>= fun c =>
    setPrev h c.next c.prev >>= fun h =>
    setPrev h s.hd (some x) >>= fun h =>
    setPrev h (some x) none >>= fun h =>
    setNext h (some x) s.hd >>= fun h =>
    .ok ⟨h, some x, s.tl⟩

/-- `prepend_obj_to_head`, cacheObj.c:182-201. -/
def prepend (s : St) (x : Addr) : Res St :=
  setPrev s.h (some x) none >>= fun h =>
  setNext h (some x) s.hd >>= fun h =>
  let tl := if s.tl = none then some x else s.tl
  (if s.hd ≠ none then setPrev h s.hd (some x) else .ok h) >>= fun h =>
  .ok ⟨h, some x, tl⟩

/-- `append_obj_to_tail`, cacheObj.c:210-229. -/
def append (s : St) (x : Addr) : Res St :=
  setNext s.h (some x) none >>= fun h =>
  setPrev h (some x) s.tl >>= fun h =>
  let hd := if s.hd = none then some x else s.hd
  (if s.tl ≠ none then setNext h s.tl (some x) else .ok h) >>= fun h =>
  .ok ⟨h, hd, some x⟩

/-- The unlinking of the tail written out in `LRU_evict` (LRU.c:197-207) and `FIFO_evict` (FIFO.c:174-185):
`q_tail = q_tail->queue.prev; if (q_tail != NULL) q_tail->queue.next = NULL; else q_head = NULL;`.
The evicted object keeps its dangling pointers; it is freed right afterwards. -/
def dropTail (s : St) : Res St :=
  rd s.h s.tl >>= fun c =>
  if c.prev ≠ none then
    setNext s.h c.prev none >>= fun h => .ok ⟨h, s.hd, c.prev⟩
  else .ok ⟨s.h, none, c.prev⟩

/-- The unlinking of the head in `MRU_evict`, MRU.c:179-180: `q_head = q_head->queue.next; q_head->queue.prev = NULL;`
(faults on a one-element list, and leaves `q_tail` alone). -/
def dropHead (s : St) : Res St :=
  rd s.h s.hd >>= fun c =>
  setPrev s.h c.next none >>= fun h => .ok ⟨h, c.next, s.tl⟩

end Verif.DList
