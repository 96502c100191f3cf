import Verif.Algo.Sieve
import Verif.Algo.Sampled
/-!
# libCacheSim/cache/eviction/FIFO_Merge.c

Random numbers are a parameter: `picks` holds one number per call of `next_rand`.  `qsort` is any function that sorts (`Sorter`), arithmetic on `double` is exact
arithmetic followed by any rounding (`Hyperbolic.Rounding`).  Pointers kept across calls (`next_to_exam` and those in `metric_list`) are ids; when the object they point to
is freed they become `freed`, and following them is the fault `useAfterFree`.
-/

namespace Verif.FIFOMerge
open Verif

/-- `retain_policy_t`, FIFO_Merge.c:26-31 -/
inductive Policy
  | recency | frequency | belady | none
deriving DecidableEq, Repr

/-- A `double`. -/
inductive Dbl
  | nan | ninf | fin (q : Rat) | inf
deriving DecidableEq, Repr

/-- `a < b` on doubles -/
def Dbl.lt : Dbl → Dbl → Bool
  | .ninf, .fin _ => true
  | .ninf, .inf => true
  | .fin a, .fin b => decide (a < b)
  | .fin _, .inf => true
  | _, _ => false

/-- Division of a double by an integer converted to double (`+0.0` for zero). -/
def Dbl.div (R : Hyperbolic.Rounding) : Dbl → Int → Dbl
  | .nan, _ => .nan
  | .inf, y => if y < 0 then .ninf else .inf
  | .ninf, y => if y < 0 then .inf else .ninf
  | .fin x, y => if y = 0 then (if x = 0 then .nan else if x > 0 then .inf else .ninf) else .fin (R.rnd (x / R.rnd y))

/-- `FIFO_Merge_obj_metadata_t`, cacheObj.h:76-79.  Simplification: `freq` does not overflow (an `int32_t` does after 2^31 hits). -/
structure Meta where
  freq : Nat
  last : Int
deriving DecidableEq, Repr

/-- A pointer to a cached object. -/
inductive Ptr
  | null | to (id : ObjId) | freed
deriving DecidableEq, Repr

/-- The object is freed. -/
def Ptr.drop (id : ObjId) : Ptr → Ptr
  | .to i => if i = id then .freed else .to i
  | p => p

/-- `struct sort_list_node`, FIFO_Merge.c:21-24 -/
abbrev Node := Dbl × Ptr

/-- `qsort` with `cmp_list_node` (FIFO_Merge.c:395-406): some permutation in ascending order, if no metric is NaN. -/
structure Sorter where
  sort : List Node → List Node
  perm : ∀ l, (sort l).Perm l
  sorted : ∀ l, (∀ x ∈ l, x.1 ≠ .nan) → (sort l).Pairwise (fun a b => Dbl.lt b.1 a.1 = false)

/-- `FIFO_Merge_params_t`, FIFO_Merge.c:35-50, the part fixed by `FIFO_Merge_init`, which asserts the two conditions (lines 123-124). -/
structure Params where
  nExam : Nat
  nKeep : Nat
  policy : Policy
  R : Hyperbolic.Rounding
  S : Sorter
  pos : 0 < nExam
  le : nKeep ≤ nExam

/-- The rest of `FIFO_Merge_params_t` next to the `cache_t` part. -/
structure State where
  base : Base Meta
  q : List ObjId
  next : Ptr
  list : List Node
  pos : Nat
  picks : List Nat
deriving DecidableEq, Repr

/-- `params->last_access_vtime = cache->n_req` stores into an `int32_t`. -/
def stamp (n : Nat) : Int := Int.bmod n (2 ^ 32)

/-- `FIFO_Merge_find`, FIFO_Merge.c:185-198; `misc.next_access_vtime` is written by `cache_find_base` already. -/
def find (s : State) (r : Req) (update : Bool) : Res (Bool × State) :=
  match s.base.findBase r update with
  | (none, b) => .ok (false, { s with base := b })
  | (some o, b) =>
    if update then
      .ok (true, { s with base := b.modify o.id (fun o => { o with mt := ⟨o.mt.freq + 1, stamp s.base.nReq⟩ }) })
    else .ok (true, { s with base := b })

/-- `FIFO_Merge_insert`, FIFO_Merge.c:211-221; `misc.next_access_vtime` is written by `cache_insert_base` already. -/
def insert (s : State) (r : Req) : Res State :=
  qPrepend s.q r.id >>= fun q' =>
  .ok { s with base := s.base.insertBase ⟨0, stamp s.base.nReq⟩ r, q := q' }

/-- `belady_metric`, FIFO_Merge.c:408-414 -/
def beladyMetric (R : Hyperbolic.Rounding) (nReq : Nat) (o : Obj Meta) : Dbl :=
  if o.miscNext = -1 ∨ o.miscNext = 9223372036854775807 then .fin (-1)
  else Dbl.div R (Dbl.div R (.fin (10 ^ 12)) (o.miscNext - nReq)) o.size

/-- `freq_metric`, FIFO_Merge.c:416-422; `d` is the random number. -/
def freqMetric (R : Hyperbolic.Rounding) (d : Nat) (o : Obj Meta) : Dbl :=
  Dbl.div R (.fin (R.rnd (10 ^ 6 * R.rnd (o.mt.freq + R.rnd (((d % 1000 : Nat) : Rat) / 10000))))) o.size

/-- `recency_metric`, FIFO_Merge.c:424-428 -/
def recencyMetric (R : Hyperbolic.Rounding) (nReq : Nat) (o : Obj Meta) : Dbl :=
  Dbl.div R (Dbl.div R (.fin (10 ^ 12)) (nReq - o.mt.last)) o.size

/-- `retain_metric`, FIFO_Merge.c:430-445; only the frequency metric draws a random number. -/
def retainMetric (P : Params) (nReq : Nat) (picks : List Nat) (o : Obj Meta) : Res (Dbl × List Nat) :=
  match P.policy with
  | .frequency => .ok (freqMetric P.R (picks.headD 0) o, picks.tail)
  | .recency => .ok (recencyMetric P.R nReq o, picks)
  | .belady => .ok (beladyMetric P.R nReq o, picks)
  | .none => .error .abort

/-- The loop FIFO_Merge.c:276-286: `n` rounds are left, `cur` is the object to examine, `loops` is `n_loop`. -/
def exam (P : Params) (s : State) : Nat → Ptr → Nat → List Nat → Res (List Node × Ptr × List Nat)
  | 0, cur, _, picks => .ok ([], cur, picks)
  | n + 1, cur, loops, picks =>
    match cur with
    | .freed => .error .useAfterFree
    | .null =>
      if loops + 1 ≤ 2 then
        qTail s.q >>= fun id =>
        match s.base.lookup id with
        | none => .error .useAfterFree
        | some o =>
          retainMetric P s.base.nReq picks o >>= fun m =>
          exam P s n (match Sieve.prevOf s.q id with | some p => .to p | none => .null) (loops + 2) m.2 >>= fun x =>
          .ok ((m.1, .to id) :: x.1, x.2)
      else .error .assertFail
    | .to id =>
      match s.base.lookup id with
      | none => .error .useAfterFree
      | some o =>
        retainMetric P s.base.nReq picks o >>= fun m =>
        exam P s n (match Sieve.prevOf s.q id with | some p => .to p | none => .null) loops m.2 >>= fun x =>
        .ok ((m.1, .to id) :: x.1, x.2)

/-- `remove_obj_from_list` and `cache_evict_base`/`cache_remove_obj_base`: the object is freed. -/
def dropObj (s : State) (id : ObjId) : Res State :=
  qRemove s.q id >>= fun q' =>
  s.base.evictBase id >>= fun b' =>
  .ok { s with base := b', q := q', next := s.next.drop id, list := s.list.map (fun e => (e.1, e.2.drop id)) }

/-- The same through a pointer. -/
def dropPtr (s : State) : Ptr → Res State
  | .null => .error .nullDeref
  | .freed => .error .useAfterFree
  | .to id => dropObj s id

/-- `FIFO_Merge_evict` from line 260 on. -/
def evictMore (P : Params) (s : State) : Res State :=
  if s.base.nObj ≤ P.nExam then
    qTail s.q >>= fun id => dropObj { s with next := .null } id
  else
    exam P s P.nExam s.next 0 s.picks >>= fun x =>
    match P.S.sort x.1 with
    | [] => .error .outOfBounds
    | e :: l => dropPtr { s with next := x.2.1, list := e :: l, pos := 1, picks := x.2.2 } e.2

/-- `FIFO_Merge_evict`, FIFO_Merge.c:247-299. -/
def evict (P : Params) (s : State) : Res State :=
  if s.pos < P.nExam then
    match s.list[s.pos]? with
    | none => .error .outOfBounds
    | some e =>
      if s.pos + 1 < P.nExam - P.nKeep then dropPtr { s with pos := s.pos + 1 } e.2
      else evictMore P { s with pos := s.pos + 1 }
  else evictMore P s

/-- `FIFO_Merge_remove`, FIFO_Merge.c:301-331. -/
def remove (s : State) (id : ObjId) : Res (Bool × State) :=
  match s.base.lookup id with
  | none => .ok (false, s)
  | some _ => dropObj s id >>= fun s' => .ok (true, s')

/-- `FIFO_Merge_to_evict`, FIFO_Merge.c:233-236: `ERROR` aborts. -/
def toEvict (_ : State) : Res (Option ObjId) := .error .abort

/-- The function table, FIFO_Merge.c:92-101. -/
def algo (P : Params) : Algo State where
  find := find
  insert := insert
  evict := fun s _ => evict P s
  remove := remove
  canInsert := fun s r => ((s.base.canInsertDefault r).1, { s with base := (s.base.canInsertDefault r).2 })
  occ := fun s => s.base.occ
  nObj := fun s => s.base.nObj
  cacheSize := fun s => s.base.cacheSize
  md := fun s => s.base.objMd
  bump := fun s => { s with base := s.base.bump }
  fuel := fun s => s.base.tbl.length

/-- `FIFO_Merge_init`, FIFO_Merge.c:88-131: `pos_in_metric_list` starts at `INT32_MAX`; the size parameters are those of `Params`. -/
def init (cacheSize md : Nat) (adm : Adm) (picks : List Nat) : State :=
  { base := Base.init cacheSize md adm, q := [], next := .null, list := [], pos := 2147483647, picks }

end Verif.FIFOMerge
