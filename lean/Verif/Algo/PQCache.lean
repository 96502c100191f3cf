import Verif.Base.CacheBase
import Verif.Data.PQueue
import Verif.Base.Double
/-!
# Belady.c and Size.c: a cache with a priority queue

The two files of libCacheSim/cache/eviction have the same functions up to the priority they use; `key r` is that priority, already
converted to `double`.  The heap is the model of dataStructure/pqueue.c.  Queue nodes are allocated with `malloc` in `insert` and freed
in `evict` and `remove`; the model uses each address once.
-/

namespace Verif.PQCache
open Verif PQueue

/-- the `cache_t` part; `Belady_params_t`/`Size_params_t` (Belady.c:20-23, Size.c:20-23) with the queue; the field `obj_id` of the nodes
(pqueue.h:76-80).  The union member of an object is its `pq_node` (cacheObj.h); `Belady.next_access_vtime` is only read by debug
assertions and left out. -/
structure State where
  base : Base (Option Node)
  pq : Q Int
  nodeId : Node → ObjId
  /-- the next address `malloc` returns -/
  fresh : Node

/-- `Belady_find`, Belady.c:139-165 (`EVICT_IMMEDIATELY_IF_NO_FUTURE_ACCESS` is not defined, line 25); `Size_find`, Size.c:134-149 -/
def find (key : Req → Int) (s : State) (r : Req) (update : Bool) : Res (Bool × State) :=
  let p := s.base.findBase r update
  if update = false then .ok (p.1.isSome, { s with base := p.2 })
  else
    match p.1 with
    | none => .ok (false, { s with base := p.2 })
    | some o =>
      match o.mt with
      | none => .error .nullDeref
      | some nd => changePriority s.pq (key r) nd >>= fun q => .ok (true, { s with base := p.2, pq := q })

/-- `Belady_insert`, Belady.c:177-204, after its check; `Size_insert`, Size.c:161-173 -/
def insert (key : Req → Int) (s : State) (r : Req) : Res State :=
  let b := s.base.insertBase none r
  let nd := s.fresh
  PQueue.insert (setPri s.pq nd (key r)) nd >>= fun q =>
  .ok { base := b.modify r.id (fun o => { o with mt := some nd }), pq := q, nodeId := fun m => if m = nd then r.id else s.nodeId m,
        fresh := nd + 1 }

/-- `Belady_to_evict`, Belady.c:216-221; `Size_to_evict`, Size.c:185-190.  `none`: NULL dereferenced. -/
def toEvict (s : State) : Option ObjId :=
  match peek s.pq with
  | .ok (some nd) => (s.base.lookup (s.nodeId nd)).map (·.id)
  | _ => none

/-- `Belady_evict`, Belady.c:231-244; `Size_evict`, Size.c:200-213 -/
def evict (s : State) : Res State :=
  pop s.pq >>= fun p =>
  match p.1 with
  | none => .error .nullDeref
  | some nd =>
    match s.base.lookup (s.nodeId nd) with
    | none => .error .nullDeref
    | some o =>
      (s.base.modify o.id (fun o => { o with mt := none })).evictBase o.id >>= fun b => .ok { s with base := b, pq := p.2 }

/-- `Belady_remove` and `Belady_remove_obj`, Belady.c:246-281; `Size_remove` and `Size_remove_obj`, Size.c:215-250 -/
def remove (s : State) (id : ObjId) : Res (Bool × State) :=
  match s.base.lookup id with
  | none => .ok (false, s)
  | some o =>
    match o.mt with
    | some nd =>
      PQueue.remove s.pq nd >>= fun q =>
      (s.base.modify o.id (fun o => { o with mt := none })).removeObjBase o.id >>= fun b => .ok (true, { s with base := b, pq := q })
    | none => s.base.removeObjBase o.id >>= fun b => .ok (true, { s with base := b })

/-- `Belady_init`, Belady.c:54-75; `Size_init`, Size.c:54-75: `pqueue_init(8e6)`.  `obj_md_size` is 0 there. -/
def init (cacheSize md : Nat) (adm : Adm) : State :=
  { base := Base.init cacheSize md adm, pq := PQueue.init 8000000 (fun _ => 0) (fun _ => 0), nodeId := fun _ => 0, fresh := 0 }

/-- the function table with `ins` for `insert` -/
def algoWith (key : Req → Int) (ins : State → Req → Res State) : Algo State where
  find := find key
  insert := ins
  evict := fun s _ => evict s
  remove := remove
  canInsert := fun s r => ((s.base.canInsertDefault r).1, { s with base := (s.base.canInsertDefault r).2 })
  occ := fun s => s.base.occ
  nObj := fun s => s.base.nObj
  cacheSize := fun s => s.base.cacheSize
  md := fun s => s.base.objMd
  bump := fun s => { s with base := s.base.bump }
  fuel := fun s => s.base.tbl.length

end Verif.PQCache

namespace Verif.Size
open Verif

abbrev State := PQCache.State

/-- the priority of `Size`: the size in the latest request, Size.c:145, 168 -/
def key (r : Req) : Int := dbl r.size

def init (cacheSize md : Nat) (adm : Adm) : State := PQCache.init cacheSize md adm
def toEvict : State → Option ObjId := PQCache.toEvict

/-- the function table set up by `Size_init`, Size.c:54-75 -/
def algo : Algo State := PQCache.algoWith key (PQCache.insert key)

end Verif.Size

namespace Verif.Belady
open Verif

abbrev State := PQCache.State

/-- the priority of `Belady`: the next access time in the latest request, Belady.c:151, 189 -/
def key (r : Req) : Int := dbl r.next

/-- `Belady_insert`, Belady.c:177-204: `ERROR` aborts when the next access time is -1 -/
def insert (s : State) (r : Req) : Res State := if r.next = -1 then .error .abort else PQCache.insert key s r

def init (cacheSize md : Nat) (adm : Adm) : State := PQCache.init cacheSize md adm
def toEvict : State → Option ObjId := PQCache.toEvict

/-- the function table set up by `Belady_init`, Belady.c:54-75 -/
def algo : Algo State := PQCache.algoWith key insert

end Verif.Belady
