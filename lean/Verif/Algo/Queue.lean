import Verif.Base.CacheBase
/-!
# Queues of cached objects

The eviction algorithms keep cached objects on intrusive doubly linked lists through `q_head`/`q_tail`.  At
this level a list is the sequence of object ids from head to tail.  `Verif/Data/DList.lean` models the pointer
code of libCacheSim/cache/cacheObj.c and proves that it implements these operations.

Handing an object that is not on the list to a move/remove operation, or inserting an object that is on it, has
no defined result in C (pointers of another list get spliced); the model makes it the fault `notLinked`.
-/

namespace Verif

/-- `remove_obj_from_list`, libCacheSim/cache/cacheObj.c:57-76. -/
def qRemove (q : List ObjId) (id : ObjId) : Res (List ObjId) :=
  if id ∈ q then .ok (q.erase id) else .error .notLinked

/-- `move_obj_to_head`, cacheObj.c:130-173. -/
def qMoveToHead (q : List ObjId) (id : ObjId) : Res (List ObjId) :=
  if id ∈ q then .ok (id :: q.erase id) else .error .notLinked

/-- `move_obj_to_tail`, cacheObj.c:84-122. -/
def qMoveToTail (q : List ObjId) (id : ObjId) : Res (List ObjId) :=
  if id ∈ q then .ok (q.erase id ++ [id]) else .error .notLinked

/-- `prepend_obj_to_head`, cacheObj.c:182-201. -/
def qPrepend (q : List ObjId) (id : ObjId) : Res (List ObjId) :=
  if id ∈ q then .error .notLinked else .ok (id :: q)

/-- `append_obj_to_tail`, cacheObj.c:210-229. -/
def qAppend (q : List ObjId) (id : ObjId) : Res (List ObjId) :=
  if id ∈ q then .error .notLinked else .ok (q ++ [id])

/-- Reading through the pointer `q_tail`: NULL when the list is empty. -/
def qTail (q : List ObjId) : Res ObjId :=
  match q.getLast? with
  | some id => .ok id
  | none => .error .nullDeref

/-- Dropping the tail as `LRU_evict`/`FIFO_evict` do by hand (LRU.c:200-207, FIFO.c:178-185). -/
def qDropTail (q : List ObjId) : List ObjId := q.dropLast

/-- `copy_cache_obj_to_request`, cacheObj.c:14-20. -/
def Obj.toReq {μ : Type} (o : Obj μ) : Req := { id := o.id, size := o.size, next := o.miscNext }

/-- Common state of the single-queue algorithms: the `cache_t` part and the queue, head first. -/
structure QState (μ : Type) where
  base : Base μ
  q : List ObjId
deriving DecidableEq, Repr

namespace QState
variable {μ : Type}

/-- `X_init` of the single-queue algorithms: LRU.c:49-82, FIFO.c:49-71, MRU.c:52-70. -/
def init (cacheSize md : Nat) (adm : Adm) : QState μ := { base := Base.init cacheSize md adm, q := [] }

/-- `cache->can_insert = cache_can_insert_default` -/
def canInsert (s : QState μ) (r : Req) : Bool × QState μ :=
  ((s.base.canInsertDefault r).1, { s with base := (s.base.canInsertDefault r).2 })

/-- `X_insert`: `cache_insert_base` then `prepend_obj_to_head` (LRU.c:155-162, FIFO.c:137-143, MRU.c:145-151). -/
def insert (z : μ) (s : QState μ) (r : Req) : Res (QState μ) :=
  qPrepend s.q r.id >>= fun q' => .ok { base := s.base.insertBase z r, q := q' }

/-- `X_remove`: `hashtable_find_obj_id`, `remove_obj_from_list`, `cache_remove_obj_base`
(LRU.c:255-266, FIFO.c:203-215, MRU.c:198-208, Clock.c:255-285). -/
def remove (s : QState μ) (id : ObjId) : Res (Bool × QState μ) :=
  match s.base.lookup id with
  | none => .ok (false, s)
  | some _ =>
    qRemove s.q id >>= fun q' =>
    s.base.removeObjBase id >>= fun b' => .ok (true, { base := b', q := q' })

/-- `X_evict` of LRU and FIFO: unlink `q_tail`, then `cache_evict_base` (LRU.c:191-216, FIFO.c:169-188). -/
def evictTail (s : QState μ) : Res (QState μ) :=
  qTail s.q >>= fun victim =>
  s.base.evictBase victim >>= fun b' => .ok { base := b', q := qDropTail s.q }

/-- `FIFO_find`, FIFO.c:122-125, returning the object the C function returns a pointer to; used for FIFO caches
inside other algorithms, whose objects carry the outer algorithm's union member. -/
def findFIFO (s : QState μ) (r : Req) (update : Bool) : Option (Obj μ) × QState μ :=
  ((s.base.findBase r update).1, { s with base := (s.base.findBase r update).2 })

/-- `LRU_find`, LRU.c:130-143, returning the object; used for LRU caches inside other algorithms. -/
def findLRU (s : QState μ) (r : Req) (update : Bool) : Res (Option (Obj μ) × QState μ) :=
  match s.base.findBase r update with
  | (none, b) => .ok (none, { s with base := b })
  | (some o, b) =>
    if update then
      qMoveToHead s.q r.id >>= fun q' => .ok (some o, { base := b, q := q' })
    else .ok (some o, { s with base := b })

/-- Writing fields of a cached object through its pointer. -/
def modify (s : QState μ) (id : ObjId) (f : Obj μ → Obj μ) : QState μ := { s with base := s.base.modify id f }

/-- `X_to_evict` of LRU and FIFO (LRU.c:174-181, FIFO.c:155-158) followed by reading the object: NULL when the queue
is empty. -/
def tailObj (s : QState μ) : Res (Obj μ) :=
  qTail s.q >>= fun id =>
  match s.base.lookup id with
  | some o => .ok o
  | none => .error .useAfterFree

/-- `n_req += 1` -/
def bump (s : QState μ) : QState μ := { s with base := s.base.bump }

end QState
end Verif
