import Verif.Base.CacheBase
import Mathlib.Order.Defs.LinearOrder
import Mathlib.Data.Nat.Basic
/-!
# Rank-based eviction: libCacheSim/cache/eviction/cpp/{abstractRank.hpp, GDSF.cpp, LFU.cpp}

Priorities are doubles.  The model takes them from an arbitrary linearly ordered type with an arbitrary scoring function:
no NaN can arise (priorities are sums and quotients of non-negative numbers, at worst `+inf`), and on the other doubles
`<` is a linear order.
-/

namespace Verif.Rank
open Verif

/-- How priorities are computed.  `score infl freq size` is the priority of an object, `infl` is `pri_last_evict`;
`ages` tells whether `evict` stores the victim's priority there (GDSF) or not (LFUCpp). -/
structure Scoring (P : Type) where
  start : P
  score : P → Nat → Nat → P
  ages : Bool

/-- `pq_node_type`, abstractRank.hpp:28-53; `vt` is `last_request_vtime`. -/
structure Node (P : Type) where
  id : ObjId
  pri : P
  vt : Nat
deriving DecidableEq, Repr

section
variable {P : Type} [LinearOrder P]

/-- `operator<`, abstractRank.hpp:41-48. -/
def Node.lt (a b : Node P) : Bool := if a.pri = b.pri then decide (a.vt < b.vt) else decide (a.pri < b.pri)

/-- `std::set<pq_node_type>::emplace(...).first`: the set is kept in order; when a node that is neither smaller nor larger
is there already, nothing is inserted and the iterator points to that other node.  An iterator is represented by the node
it points to. -/
def emplace (n : Node P) : List (Node P) → Node P × List (Node P)
  | [] => (n, [n])
  | m :: l =>
    if n.lt m then (n, n :: m :: l)
    else if m.lt n then ((emplace n l).1, m :: (emplace n l).2)
    else (m, m :: l)

/-- `cache_t` with the members of `abstractRank` (abstractRank.hpp:95-96) and `pri_last_evict` (GDSF.cpp:12); the object's
`lfu.freq` is kept in the union member. -/
structure State (P : Type) where
  base : Base Nat
  pq : List (Node P)
  /-- `itr_map` -/
  itr : ObjId → Option (Node P)
  infl : P

/-- `pq.erase(itr_map[obj])`: a missing key yields a default-constructed iterator, an iterator to an erased node dangles. -/
def eraseItr (s : State P) (id : ObjId) : Res (List (Node P)) :=
  match s.itr id with
  | none => .error .uninit
  | some n => if n ∈ s.pq then .ok (s.pq.erase n) else .error .useAfterFree

/-- `itr = pq.emplace(obj, pri, cache->n_req).first; itr_map[obj] = itr` -/
def put (s : State P) (q : List (Node P)) (id : ObjId) (pri : P) : State P :=
  { s with
    pq := (emplace ⟨id, pri, s.base.nReq⟩ q).2
    itr := fun x => if x = id then some (emplace ⟨id, pri, s.base.nReq⟩ q).1 else s.itr x }

/-- `GDSF_find`, GDSF.cpp:125-144; `LFUCpp_find`, LFU.cpp:128-141. -/
def find (R : Scoring P) (s : State P) (r : Req) (update : Bool) : Res (Bool × State P) :=
  match s.base.findBase r update with
  | (none, b) => .ok (false, { s with base := b })
  | (some o, b) =>
    if update then
      eraseItr s r.id >>= fun q =>
      .ok (true, put { s with base := b.modify r.id (fun o => { o with mt := o.mt + 1 }) } q r.id (R.score s.infl (o.mt + 1) o.size))
    else .ok (true, { s with base := b })

/-- `GDSF_insert`, GDSF.cpp:157-169; `LFUCpp_insert`, LFU.cpp:154-165 (`emplace_hint` differs from `emplace` only in speed). -/
def insert (R : Scoring P) (s : State P) (r : Req) : Res (State P) :=
  .ok (put { s with base := s.base.insertBase 1 r } s.pq r.id (R.score s.infl 1 (r.size % u32)))

/-- `pop_lowest_score` (abstractRank.hpp:68-76) and `GDSF_evict` (GDSF.cpp:197-204), `LFUCpp_evict` (LFU.cpp:193-199).
`*pq.begin()` on an empty set is undefined. -/
def evict (R : Scoring P) (s : State P) : Res (State P) :=
  match s.pq with
  | [] => .error .outOfBounds
  | n :: q =>
    s.base.removeObjBase n.id >>= fun b =>
    .ok { base := b, pq := q, itr := fun x => if x = n.id then none else s.itr x, infl := if R.ages then n.pri else s.infl }

/-- `abstractRank::remove`, abstractRank.hpp:78-93, and `GDSF_remove`, GDSF.cpp:224-227. -/
def removeRank (s : State P) (id : ObjId) : Res (Bool × State P) :=
  match s.base.lookup id with
  | none => .ok (false, s)
  | some _ =>
    eraseItr s id >>= fun q =>
    s.base.removeObjBase id >>= fun b =>
    .ok (true, { s with base := b, pq := q, itr := fun x => if x = id then none else s.itr x })

/-- `LFUCpp_remove`, LFU.cpp:206-215: `abstractRank::remove` has already removed and freed the object when
`cache_remove_obj_base` is called again. -/
def removeLFU (s : State P) (id : ObjId) : Res (Bool × State P) :=
  match s.base.lookup id with
  | none => .ok (false, s)
  | some _ =>
    removeRank s id >>= fun p =>
    p.2.base.removeObjBase id >>= fun b => .ok (true, { p.2 with base := b })

/-- The function table; `lfu` selects the `remove` of LFUCpp.  (`to_evict` is a NULL pointer in both, GDSF.cpp:63 and
cache.c:27.) -/
def algo (R : Scoring P) (lfu : Bool) : Algo (State P) where
  find := find R
  insert := insert R
  evict := fun s _ => evict R s
  remove := fun s id => if lfu then removeLFU s id else removeRank s id
  canInsert := fun s r => ((s.base.canInsertDefault r).1, { s with base := (s.base.canInsertDefault r).2 })
  occ := fun s => s.base.occ
  nObj := fun s => s.base.nObj
  cacheSize := fun s => s.base.cacheSize
  md := fun s => s.base.objMd
  bump := fun s => { s with base := s.base.bump }
  fuel := fun s => s.base.tbl.length + 1

/-- `GDSF_init`, GDSF.cpp:52-74; `LFUCpp_init`. -/
def init (R : Scoring P) (cacheSize md : Nat) (adm : Adm) : State P :=
  { base := Base.init cacheSize md adm, pq := [], itr := fun _ => none, infl := R.start }

end

/-- LFUCpp: the priority is the access count (LFU.cpp:136, 160; `(double)freq` is exact below 2^53 accesses). -/
def lfuScoring : Scoring Nat := { start := 0, score := fun _ f _ => f, ages := false }

end Verif.Rank

namespace Verif

/-! ## The two algorithms -/

/-- GDSF (GDSF.cpp).  `score infl freq size` stands for `pri_last_evict + freq * 1.0e6 / obj_size` in doubles. -/
def GDSF.scoring {P : Type} (start : P) (score : P → Nat → Nat → P) : Rank.Scoring P := { start, score, ages := true }
def GDSF.algo {P : Type} [LinearOrder P] (start : P) (score : P → Nat → Nat → P) : Algo (Rank.State P) := Rank.algo (GDSF.scoring start score) false
def GDSF.init {P : Type} (start : P) (score : P → Nat → Nat → P) (cs md : Nat) (adm : Adm) : Rank.State P := Rank.init (GDSF.scoring start score) cs md adm

/-- LFUCpp (LFU.cpp). -/
def LFUCpp.algo : Algo (Rank.State Nat) := Rank.algo Rank.lfuScoring true
def LFUCpp.init (cs md : Nat) (adm : Adm) : Rank.State Nat := Rank.init Rank.lfuScoring cs md adm

end Verif
