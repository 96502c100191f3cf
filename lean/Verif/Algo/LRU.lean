import Verif.Algo.Queue
/-!
# libCacheSim/cache/eviction/LRU.c (without `USE_BELADY`)
-/

namespace Verif.LRU
open Verif

abbrev State := QState Unit

/-- `LRU_find`, LRU.c:130-143. -/
def find (s : State) (r : Req) (update : Bool) : Res (Bool × State) :=
  match s.base.findBase r update with
  | (none, b) => .ok (false, { s with base := b })
  | (some _, b) =>
    if update then
      qMoveToHead s.q r.id >>= fun q' => .ok (true, { base := b, q := q' })
    else .ok (true, { s with base := b })

/-- `LRU_to_evict`, LRU.c:174-181: returns `q_tail`.  (It also stamps `to_evict_candidate_gen_vtime`, which
nothing in LRU reads.) -/
def toEvict (s : State) : Option ObjId := s.q.getLast?

/-- `LRU_init`, LRU.c:49-82: the function table.  The eviction loop runs at most once per cached object
(one more round, which crashes on the empty queue, is possible only when the byte counter has drifted). -/
def algo : Algo State where
  find := find
  insert := QState.insert ()
  evict := fun s _ => s.evictTail
  remove := QState.remove
  canInsert := QState.canInsert
  occ := fun s => s.base.occ
  nObj := fun s => s.base.nObj
  cacheSize := fun s => s.base.cacheSize
  md := fun s => s.base.objMd
  bump := QState.bump
  fuel := fun s => s.base.tbl.length + 1

/-- `obj_md_size` of LRU: 16 when object metadata is considered, LRU.c:66-70. -/
def mdSize (considerMd : Bool) : Nat := if considerMd then 16 else 0

def init (cacheSize md : Nat) (adm : Adm) : State := QState.init cacheSize md adm

end Verif.LRU
