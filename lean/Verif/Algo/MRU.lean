import Verif.Algo.LRU
/-!
# libCacheSim/cache/eviction/MRU.c
-/

namespace Verif.MRU
open Verif

abbrev State := QState Unit

/-- `MRU_find`, MRU.c:122-132 (same code as `LRU_find`). -/
def find (s : State) (r : Req) (update : Bool) : Res (Bool × State) :=
  match s.base.findBase r update with
  | (none, b) => .ok (false, { s with base := b })
  | (some _, b) =>
    if update then
      qMoveToHead s.q r.id >>= fun q' => .ok (true, { base := b, q := q' })
    else .ok (true, { s with base := b })

/-- `MRU_to_evict`, MRU.c:163-166. -/
def toEvict (s : State) : Option ObjId := s.q.head?

/-- `MRU_evict`, MRU.c:177-183: `q_head = q_head->queue.next; q_head->queue.prev = NULL;` — both the old and
the new head are dereferenced without a NULL check. -/
def evict (s : State) : Res State :=
  match s.q with
  | [] => .error .nullDeref
  | [_] => .error .nullDeref
  | victim :: rest => s.base.evictBase victim >>= fun b' => .ok { base := b', q := rest }

/-- `MRU_init`, MRU.c:52-70. -/
def algo : Algo State where
  find := find
  insert := QState.insert ()
  evict := fun s _ => evict s
  remove := QState.remove
  canInsert := QState.canInsert
  occ := fun s => s.base.occ
  nObj := fun s => s.base.nObj
  cacheSize := fun s => s.base.cacheSize
  md := fun s => s.base.objMd
  bump := QState.bump
  fuel := fun s => s.base.tbl.length

def init (cacheSize md : Nat) (adm : Adm) : State := QState.init cacheSize md adm

end Verif.MRU
