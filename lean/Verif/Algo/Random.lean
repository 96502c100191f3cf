import Verif.Base.CacheBase
/-!
# Random.c, RandomTwo.c and RandomLRU.c

`hashtable_rand_obj` returns the head of a randomly chosen non-empty bucket.  Here the choice is a parameter: `picks` holds numbers, one per
call, and the object returned is the one at that position (modulo the number of cached objects).  Quantifying over `picks` covers every
outcome the hash table and the generator can produce; that the real loop ends and returns an object of the table is proved about the hash
table and the generator in `Verif/Props/Random.lean` (`C20_randEnds`).
-/

namespace Verif.Rand
open Verif

/-- the `cache_t` part; the union member of an object is `Random.last_access_vtime` (cacheObj.h:101-105) -/
structure State where
  base : Base Int
  picks : List Nat

/-- `hashtable_rand_obj`, chainedHashTableV2.c:297-302.  On an empty table the loop does not end. -/
def randObj (s : State) : Res (Obj Int × State) :=
  if h : s.base.tbl.length = 0 then .error .diverge
  else .ok (s.base.tbl[s.picks.headD 0 % s.base.tbl.length]'(Nat.mod_lt _ (Nat.pos_of_ne_zero h)), { s with picks := s.picks.tail })

/-- `n` calls of `hashtable_rand_obj` in a row -/
def randObjs : Nat → State → Res (List (Obj Int) × State)
  | 0, s => .ok ([], s)
  | n + 1, s => randObj s >>= fun p => randObjs n p.2 >>= fun q => .ok (p.1 :: q.1, q.2)

/-- `Random_find`, Random.c:119-122 -/
def findPlain (s : State) (r : Req) (update : Bool) : Res (Bool × State) :=
  let p := s.base.findBase r update
  .ok (p.1.isSome, { s with base := p.2 })

/-- `RandomTwo_find`, RandomTwo.c:112-120; `RandomLRU_find`, RandomLRU.c:130-137 -/
def findStamp (s : State) (r : Req) (update : Bool) : Res (Bool × State) :=
  let p := s.base.findBase r update
  match p.1 with
  | some o =>
    if update then .ok (true, { s with base := p.2.modify o.id (fun o => { o with mt := (s.base.nReq : Int) }) })
    else .ok (true, { s with base := p.2 })
  | none => .ok (false, { s with base := p.2 })

/-- `Random_insert`, Random.c:134-136 -/
def insertPlain (s : State) (r : Req) : Res State := .ok { s with base := s.base.insertBase 0 r }

/-- `RandomTwo_insert`, RandomTwo.c:132-137; `RandomLRU_insert`, RandomLRU.c:149-154 -/
def insertStamp (s : State) (r : Req) : Res State :=
  .ok { s with base := (s.base.insertBase 0 r).modify r.id (fun o => { o with mt := (s.base.nReq : Int) }) }

/-- `Random_evict`, Random.c:160-164, which calls `Random_to_evict`, 148-150 -/
def evict1 (s : State) : Res State :=
  randObj s >>= fun p => p.2.base.evictBase p.1.id >>= fun b => .ok { p.2 with base := b }

/-- `RandomTwo_to_evict`, RandomTwo.c:149-157 -/
def choose2 (s : State) : Res (Obj Int × State) :=
  randObj s >>= fun p => randObj p.2 >>= fun q => .ok (if p.1.mt < q.1.mt then p.1 else q.1, q.2)

/-- `RandomTwo_evict`, RandomTwo.c:167-175 -/
def evict2 (s : State) : Res State :=
  randObj s >>= fun p => randObj p.2 >>= fun q =>
  if p.1.mt < q.1.mt then q.2.base.evictBase p.1.id >>= fun b => .ok { q.2 with base := b }
  else q.2.base.evictBase q.1.id >>= fun b => .ok { q.2 with base := b }

/-- the objects of the sample with the smallest access time -/
def oldest (l : List (Obj Int)) : List (Obj Int) := l.filter (fun o => l.all (fun o' => decide (o.mt ≤ o'.mt)))

/-- `qsort(obj_to_evict, N, ..., compare_access_time)` followed by `obj_to_evict[0]`, RandomLRU.c:186-208.  `qsort` leaves open which of several
equal elements comes first; `pick` decides. -/
def qsortFirst (l : List (Obj Int)) (pick : Nat) : Res (Obj Int) :=
  match (oldest l)[pick % (oldest l).length]? with
  | some o => .ok o
  | none => .error .outOfBounds

/-- `RandomLRU_evict`, RandomLRU.c:201-209: 64 samples, whatever the parameter `n-samples` says -/
def evictLRU (s : State) : Res State :=
  randObjs 64 s >>= fun p => qsortFirst p.1 (p.2.picks.headD 0) >>= fun o =>
  p.2.base.evictBase o.id >>= fun b => .ok { base := b, picks := p.2.picks.tail }

/-- `Random_remove`, Random.c:181-189; `RandomTwo_remove`, RandomTwo.c:192-200; `RandomLRU_remove`, RandomLRU.c:226-234 -/
def remove (s : State) (id : ObjId) : Res (Bool × State) :=
  match s.base.lookup id with
  | none => .ok (false, s)
  | some o => s.base.removeObjBase o.id >>= fun b => .ok (true, { s with base := b })

def init (cacheSize md : Nat) (adm : Adm) (picks : List Nat) : State := { base := Base.init cacheSize md adm, picks := picks }

/-- the function table with the given `find`, `insert` and `evict` -/
def algoWith (find : State → Req → Bool → Res (Bool × State)) (insert : State → Req → Res State) (evict : State → Res State) : Algo State where
  find := find
  insert := insert
  evict := fun s _ => evict s
  remove := remove
  canInsert := fun s r => ((s.base.canInsertDefault r).1, { s with base := (s.base.canInsertDefault r).2 })
  occ := fun s => s.base.occ
  nObj := fun s => s.base.nObj
  cacheSize := fun s => s.base.cacheSize
  md := fun s => s.base.objMd
  bump := fun s => { s with base := s.base.bump }
  fuel := fun s => s.base.tbl.length

end Verif.Rand

namespace Verif
open Rand

abbrev Random.State := Rand.State
abbrev RandomTwo.State := Rand.State
abbrev RandomLRU.State := Rand.State

def Random.init (cacheSize md : Nat) (adm : Adm) (picks : List Nat) : Random.State := Rand.init cacheSize md adm picks
def RandomTwo.init (cacheSize md : Nat) (adm : Adm) (picks : List Nat) : RandomTwo.State := Rand.init cacheSize md adm picks
def RandomLRU.init (cacheSize md : Nat) (adm : Adm) (picks : List Nat) : RandomLRU.State := Rand.init cacheSize md adm picks

/-- the function table set up by `Random_init`, Random.c:46-66 -/
def Random.algo : Algo Random.State := algoWith findPlain insertPlain evict1
/-- the function table set up by `RandomTwo_init`, RandomTwo.c:47-66 -/
def RandomTwo.algo : Algo RandomTwo.State := algoWith findStamp insertStamp evict2
/-- the function table set up by `RandomLRU_init`, RandomLRU.c:55-81 -/
def RandomLRU.algo : Algo RandomLRU.State := algoWith findStamp insertStamp evictLRU

end Verif
