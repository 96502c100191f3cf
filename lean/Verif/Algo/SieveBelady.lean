import Verif.Algo.Sieve
import Verif.Algo.BeladyQueue
/-!
# libCacheSim/cache/eviction/belady/Sieve_Belady.c

As compiled: `USE_BELADY_INSERTION` and `USE_BELADY_EVICTION` are defined.  `sieve.freq` is written but never read and left out.
-/

namespace Verif.SieveBelady
open Verif
open Verif.BeladyQueue (Thresh)

/-- `Sieve_Belady_params_t`, Sieve_Belady.c:14-21, next to the `cache_t` part; `nMiss` and `missing` as in `BeladyQueue.State`. -/
structure State where
  base : Base Unit
  q : List ObjId
  hand : Option ObjId
  nMiss : Nat
  missing : Bool
deriving DecidableEq, Repr

def State.qs (s : State) : QState Unit := ⟨s.base, s.q⟩

/-- `should_insert`, Sieve_Belady.c:149-160. -/
def due (T : Thresh) (s : State) (next : Int) : Bool :=
  decide (next - (s.base.nReq : Int) ≤ T s.nMiss s.base.nReq s.base.cacheSize)

/-- `Sieve_Belady_find`, Sieve_Belady.c:172-180. -/
def find (s : State) (r : Req) (update : Bool) : Res (Bool × State) :=
  .ok ((s.base.findBase r update).1.isSome, { s with base := (s.base.findBase r update).2 })

/-- `cache_can_insert_default`; when it refuses, the `get` ends (Sieve_Belady.c:123-141). -/
def canInsert (s : State) (r : Req) : Bool × State :=
  match s.base.canInsertDefault r with
  | (true, b) => (true, { s with base := b, missing := true })
  | (false, b) => (false, { s with base := b, nMiss := s.nMiss + 1 })

/-- `Sieve_Belady_insert`, Sieve_Belady.c:193-213. -/
def insert (T : Thresh) (s : State) (r : Req) : Res State :=
  if due T s r.next then
    s.qs.insert () r >>= fun x =>
    .ok { s with base := x.base, q := x.q, nMiss := if s.missing then s.nMiss + 1 else s.nMiss, missing := false }
  else .ok { s with nMiss := if s.missing then s.nMiss + 1 else s.nMiss, missing := false }

/-- `while (obj != NULL && should_insert(cache, obj->misc.next_access_vtime)) obj = obj->queue.prev;`, Sieve_Belady.c:234-238; the list is
the objects still ahead, oldest first. -/
def walk (T : Thresh) (s : State) : List ObjId → Res (Option ObjId)
  | [] => .ok none
  | id :: l =>
    match s.base.lookup id with
    | none => .error .useAfterFree
    | some o => if due T s o.miscNext then walk T s l else .ok (some id)

/-- The objects from `pointer` (or the tail, if it is NULL) towards the head, Sieve_Belady.c:226-231. -/
def ahead (s : State) : List ObjId :=
  match s.hand with
  | none => s.q.reverse
  | some h => Sieve.fromHand s.q h

/-- The choice of the victim, Sieve_Belady.c:226-253. -/
def victim (T : Thresh) (s : State) : Res (Option ObjId) :=
  walk T s (ahead s) >>= fun v =>
  match v with
  | some id => .ok (some id)
  | none =>
    walk T s s.q.reverse >>= fun v =>
    match v with
    | some id => .ok (some id)
    | none => .ok s.hand

/-- `Sieve_Belady_evict`, Sieve_Belady.c:224-258. -/
def evict (T : Thresh) (s : State) : Res State :=
  victim T s >>= fun v =>
  match v with
  | none => .error .nullDeref
  | some id =>
    qRemove s.q id >>= fun q' =>
    s.base.evictBase id >>= fun b => .ok { s with base := b, q := q', hand := Sieve.prevOf s.q id }

/-- `Sieve_Belady_remove`, Sieve_Belady.c:260-269, 284-293. -/
def remove (s : State) (id : ObjId) : Res (Bool × State) :=
  match s.base.lookup id with
  | none => .ok (false, s)
  | some _ =>
    qRemove s.q id >>= fun q' =>
    s.base.removeObjBase id >>= fun b => .ok (true, { s with base := b, q := q', hand := if s.hand = some id then Sieve.prevOf s.q id else s.hand })

/-- The function table set up by `Sieve_Belady_init`, Sieve_Belady.c:56-64. -/
def algo (T : Thresh) : Algo State where
  find := find
  insert := insert T
  evict := fun s _ => evict T s
  remove := remove
  canInsert := canInsert
  occ := fun s => s.base.occ
  nObj := fun s => s.base.nObj
  cacheSize := fun s => s.base.cacheSize
  md := fun s => s.base.objMd
  bump := fun s => { s with base := s.base.bump }
  fuel := fun s => s.base.tbl.length

/-- `Sieve_Belady_init`, Sieve_Belady.c:53-91. -/
def init (cacheSize md : Nat) (adm : Adm) : State :=
  { base := Base.init cacheSize md adm, q := [], hand := none, nMiss := 0, missing := false }

end Verif.SieveBelady
