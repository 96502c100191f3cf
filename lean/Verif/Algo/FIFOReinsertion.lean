import Verif.Algo.FIFOMerge
/-!
# libCacheSim/cache/eviction/FIFO_Reinsertion.c

`retain_metric` and what it calls, `cmp_list_node`, the object metadata and the parameters (with the checks of `FIFO_Reinsertion_init`, lines 129-130) are those of
FIFO_Merge.c, copied; so are `find`, `insert` and `to_evict`.  The list `metric_list` is written anew in each scan.  The counters of rewritten objects and bytes, which nothing reads, are left out.
-/

namespace Verif.FIFOReinsertion
open Verif
open _root_.Verif.FIFOMerge (Params Ptr Node Meta stamp retainMetric)

/-- `FIFO_Reinsertion_params_t`, FIFO_Reinsertion.c:36-53, next to the `cache_t` part; `next` is `next_to_merge`. -/
structure State where
  base : Base Meta
  q : List ObjId
  next : Ptr
  picks : List Nat
deriving DecidableEq, Repr

/-- `FIFO_Reinsertion_find`, FIFO_Reinsertion.c:193-204; `misc.next_access_vtime` is written by `cache_find_base` already. -/
def find (s : State) (r : Req) (update : Bool) : Res (Bool × State) :=
  match s.base.findBase r update with
  | (none, b) => .ok (false, { s with base := b })
  | (some o, b) =>
    if update then
      .ok (true, { s with base := b.modify o.id (fun o => { o with mt := ⟨o.mt.freq + 1, stamp s.base.nReq⟩ }) })
    else .ok (true, { s with base := b })

/-- `FIFO_Reinsertion_insert`, FIFO_Reinsertion.c:217-230; `misc.next_access_vtime` is written by `cache_insert_base` already. -/
def insert (s : State) (r : Req) : Res State :=
  qPrepend s.q r.id >>= fun q' =>
  .ok { s with base := s.base.insertBase ⟨0, stamp s.base.nReq⟩ r, q := q' }

/-- A pointer that may be null. -/
def ptr : Option ObjId → Ptr
  | some i => .to i
  | none => .null

/-- `q->prev`, or the tail if there is none: lines 284-291. -/
def succ (s : State) (id : ObjId) : Ptr :=
  match Sieve.prevOf s.q id with
  | some p => .to p
  | none => ptr s.q.getLast?

/-- The loop FIFO_Reinsertion.c:280-292: `n` rounds are left, `cur` is the object to examine.  The check of `n_loop` is a `DEBUG_ASSERT`. -/
def exam (P : Params) (s : State) : Nat → Ptr → List Nat → Res (List Node × Ptr × List Nat)
  | 0, cur, picks => .ok ([], cur, picks)
  | n + 1, cur, picks =>
    match cur with
    | .freed => .error .useAfterFree
    | .null => .error .assertFail
    | .to id =>
      match s.base.lookup id with
      | none => .error .useAfterFree
      | some o =>
        retainMetric P s.base.nReq picks o >>= fun m =>
        exam P s n (succ s id) m.2 >>= fun x =>
        .ok ((m.1, .to id) :: x.1, x.2)

/-- `FIFO_Reinsertion_remove_obj`, FIFO_Reinsertion.c:317-324: the object is freed. -/
def dropObj (s : State) (id : ObjId) : Res State :=
  qRemove s.q id >>= fun q' =>
  s.base.removeObjBase id >>= fun b' =>
  .ok { s with base := b', q := q', next := s.next.drop id }

/-- The same through a pointer. -/
def dropPtr (s : State) : Ptr → Res State
  | .null => .error .nullDeref
  | .freed => .error .useAfterFree
  | .to id => dropObj s id

/-- The loop FIFO_Reinsertion.c:301-304. -/
def dropAll (s : State) : List Node → Res State
  | [] => .ok s
  | e :: l => dropPtr s e.2 >>= fun s' => dropAll s' l

/-- The body of the loop FIFO_Reinsertion.c:306-314. -/
def keepPtr (s : State) : Ptr → Res State
  | .null => .error .nullDeref
  | .freed => .error .useAfterFree
  | .to id =>
    qMoveToHead s.q id >>= fun q' =>
    .ok { s with q := q', base := s.base.modify id (fun o => { o with mt := { o.mt with freq := (o.mt.freq + 1) / 2 } }) }

/-- That loop. -/
def keepAll (s : State) : List Node → Res State
  | [] => .ok s
  | e :: l => keepPtr s e.2 >>= fun s' => keepAll s' l

/-- Lines 264-269: at the start of `FIFO_Reinsertion_evict` a null `next_to_merge` becomes the tail. -/
def start (s : State) : State :=
  match s.next with
  | .null => { s with next := ptr s.q.getLast? }
  | _ => s

/-- Lines 271-278: evict the object under the pointer, move the pointer to its newer neighbour. -/
def evictOne (s : State) : Res State :=
  match s.next with
  | .null => .error .nullDeref
  | .freed => .error .useAfterFree
  | .to id => dropObj s id >>= fun s' => .ok { s' with next := ptr (Sieve.prevOf s.q id) }

/-- Lines 280-314: a scan. -/
def scan (P : Params) (s : State) : Res State :=
  exam P s P.nExam s.next s.picks >>= fun x =>
  dropAll { s with next := x.2.1, picks := x.2.2 } ((P.S.sort x.1).take (P.nExam - P.nKeep)) >>= fun s' =>
  keepAll s' ((P.S.sort x.1).drop (P.nExam - P.nKeep))

/-- `FIFO_Reinsertion_evict`, FIFO_Reinsertion.c:258-315. -/
def evict (P : Params) (s : State) : Res State :=
  if (start s).base.nObj ≤ P.nExam then evictOne (start s) else scan P (start s)

/-- `FIFO_Reinsertion_remove`, FIFO_Reinsertion.c:339-348. -/
def remove (s : State) (id : ObjId) : Res (Bool × State) :=
  match s.base.lookup id with
  | none => .ok (false, s)
  | some _ => dropObj s id >>= fun s' => .ok (true, s')

/-- `FIFO_Reinsertion_to_evict`, FIFO_Reinsertion.c:242-247: `ERROR` aborts. -/
def toEvict (_ : State) : Res (Option ObjId) := .error .abort

/-- The function table, FIFO_Reinsertion.c:99-106. -/
def algo (P : Params) : Algo State where
  find := find
  insert := insert
  evict := fun s _ => evict P s
  remove := remove
  canInsert := fun s r => ((s.base.canInsertDefault r).1, { s with base := (s.base.canInsertDefault r).2 })
  occ := fun s => s.base.occ
  nObj := fun s => s.base.nObj
  cacheSize := fun s => s.base.cacheSize
  md := fun s => s.base.objMd
  bump := fun s => { s with base := s.base.bump }
  fuel := fun s => s.base.tbl.length

/-- `FIFO_Reinsertion_init`, FIFO_Reinsertion.c:96-138. -/
def init (cacheSize md : Nat) (adm : Adm) (picks : List Nat) : State :=
  { base := Base.init cacheSize md adm, q := [], next := .null, picks }

end Verif.FIFOReinsertion
