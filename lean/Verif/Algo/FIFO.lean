import Verif.Algo.Queue
/-!
# libCacheSim/cache/eviction/FIFO.c
-/

namespace Verif.FIFO
open Verif

abbrev State := QState Unit

/-- `FIFO_find`, FIFO.c:122-125. -/
def find (s : State) (r : Req) (update : Bool) : Res (Bool × State) :=
  let p := s.base.findBase r update
  .ok (p.1.isSome, { s with base := p.2 })

/-- `FIFO_to_evict`, FIFO.c:155-158. -/
def toEvict (s : State) : Option ObjId := s.q.getLast?

/-- `FIFO_init`, FIFO.c:49-71 (`obj_md_size` is 0 there; the model keeps it a parameter because other
algorithms build on FIFO-like caches). -/
def algo : Algo State where
  find := find
  insert := QState.insert ()
  evict := fun s _ => s.evictTail
  remove := QState.remove
  canInsert := QState.canInsert
  occ := fun s => s.base.occ
  nObj := fun s => s.base.nObj
  cacheSize := fun s => s.base.cacheSize
  md := fun s => s.base.objMd
  bump := QState.bump
  fuel := fun s => s.base.tbl.length

def init (cacheSize md : Nat) (adm : Adm) : State := QState.init cacheSize md adm

end Verif.FIFO
