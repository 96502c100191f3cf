import Verif.Algo.Queue
/-!
# libCacheSim/cache/eviction/Sieve.c
-/

namespace Verif.Sieve
open Verif

/-- `Sieve_params_t`, Sieve.c:10-15, next to the `cache_t` part; the union member is `sieve.freq`, the pointer is
kept as the id of the object pointed to. -/
structure State where
  base : Base Nat
  q : List ObjId
  hand : Option ObjId
deriving DecidableEq, Repr

def State.qs (s : State) : QState Nat := ⟨s.base, s.q⟩

/-- `obj->queue.prev`: the neighbour towards the head. -/
def prevOf : List ObjId → ObjId → Option ObjId
  | a :: b :: l, id => if b = id then some a else prevOf (b :: l) id
  | _, _ => none

/-- `Sieve_find`, Sieve.c:125-133. -/
def find (s : State) (r : Req) (update : Bool) : Res (Bool × State) :=
  match s.base.findBase r update with
  | (none, b) => .ok (false, { s with base := b })
  | (some _, b) =>
    if update then .ok (true, { s with base := b.modify r.id (fun o => { o with mt := 1 }) })
    else .ok (true, { s with base := b })

/-- `Sieve_insert`, Sieve.c:146-153. -/
def insert (s : State) (r : Req) : Res State :=
  s.qs.insert 0 r >>= fun x => .ok { s with base := x.base, q := x.q }

/-- The loop of `Sieve_evict`, Sieve.c:224-227: while the object is marked, decrement and step towards the head,
wrapping to the tail.  `n` bounds the iterations. -/
def scan : Nat → State → ObjId → Res (ObjId × State)
  | 0, _, _ => .error .diverge
  | n + 1, s, id =>
    match s.base.lookup id with
    | none => .error .useAfterFree
    | some o =>
      if o.mt > 0 then
        let s' := { s with base := s.base.modify id (fun o => { o with mt := o.mt - 1 }) }
        match prevOf s.q id with
        | some p => scan n s' p
        | none => qTail s.q >>= fun t => scan n s' t
      else .ok (id, s)

/-- Bound on the number of steps of the scan: every step but the last decrements a counter. -/
def fuelOf (s : State) : Nat := (s.base.tbl.map (·.mt)).sum + 1

/-- `params->pointer == NULL ? params->q_tail : params->pointer`, Sieve.c:222. -/
def startOf (s : State) : Res ObjId :=
  match s.hand with
  | some h => .ok h
  | none => qTail s.q

/-- `Sieve_evict`, Sieve.c:218-232. -/
def evict (s : State) : Res State :=
  startOf s >>= fun start =>
  scan (fuelOf s) s start >>= fun p =>
  qRemove p.2.q p.1 >>= fun q' =>
  p.2.base.evictBase p.1 >>= fun b' =>
  .ok { base := b', q := q', hand := prevOf p.2.q p.1 }

/-- `pointer` walking towards the head while `freq > lim`, Sieve.c:175-177; the list is the objects still ahead,
oldest first. -/
def walk (s : State) (lim : Nat) (ahead : List ObjId) : Option ObjId :=
  ahead.find? (fun id => match s.base.lookup id with
    | some o => decide (¬ o.mt > lim)
    | none => true)

/-- The objects from `id` towards the head (`id` first). -/
def fromHand (q : List ObjId) (id : ObjId) : List ObjId := q.reverse.dropWhile (fun x => x ≠ id)

/-- Where the first walk starts (`pointer == NULL ? q_tail : pointer`), Sieve.c:168-173. -/
def ahead (s : State) : List ObjId :=
  match s.hand with
  | none => s.q.reverse
  | some h => fromHand s.q h

/-- `Sieve_to_evict_with_freq`, Sieve.c:165-190. -/
def toEvictWithFreq (s : State) (lim : Nat) : Option ObjId :=
  match walk s lim (ahead s) with
  | some id => some id
  | none => walk s lim s.q.reverse

/-- `Sieve_to_evict`, Sieve.c:192-207; `n` bounds the rounds. -/
def toEvictLoop (s : State) : Nat → Nat → Option ObjId
  | 0, _ => none
  | n + 1, lim =>
    match toEvictWithFreq s lim with
    | some id => some id
    | none => toEvictLoop s n (lim + 1)

def toEvict (s : State) : Option ObjId := toEvictLoop s ((s.base.tbl.map (·.mt)).sum + 1) 0

/-- `Sieve_remove`/`Sieve_remove_obj`, Sieve.c:234-242, 257-266. -/
def remove (s : State) (id : ObjId) : Res (Bool × State) :=
  match s.base.lookup id with
  | none => .ok (false, s)
  | some _ =>
    let hand' := if s.hand = some id then prevOf s.q id else s.hand
    qRemove s.q id >>= fun q' =>
    s.base.removeObjBase id >>= fun b' => .ok (true, { base := b', q := q', hand := hand' })

/-- `Sieve_init`, Sieve.c:45-72. -/
def algo : Algo State where
  find := find
  insert := insert
  evict := fun s _ => evict s
  remove := remove
  canInsert := fun s r => ((s.base.canInsertDefault r).1, { s with base := (s.base.canInsertDefault r).2 })
  occ := fun s => s.base.occ
  nObj := fun s => s.base.nObj
  cacheSize := fun s => s.base.cacheSize
  md := fun s => s.base.objMd
  bump := fun s => { s with base := s.base.bump }
  fuel := fun s => s.base.tbl.length

def init (cacheSize md : Nat) (adm : Adm) : State :=
  { base := Base.init cacheSize md adm, q := [], hand := none }

end Verif.Sieve
