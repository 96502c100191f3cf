import Verif.Algo.FIFO
/-!
# Ghost queues

Several composite caches keep a FIFO cache of recently evicted objects (a "ghost" queue).  The pointer is NULL when the configured ghost size is 0.
-/

namespace Verif

/-- `if (ghost_size > 0) ghost = FIFO_init(...)`, S3FIFO.c:124-133. -/
def ghostInit (size : Nat) : Option FIFO.State := if size > 0 then some (FIFO.init size 0 .none) else none

/-- `params->fifo_ghost != NULL && params->fifo_ghost->remove(params->fifo_ghost, obj_id)`, S3FIFO.c:247-248. -/
def ghostRemove (g : Option FIFO.State) (id : ObjId) : Res (Bool × Option FIFO.State) :=
  match g with
  | none => .ok (false, none)
  | some g => FIFO.algo.remove g id >>= fun p => .ok (p.1, some p.2)

/-- `if (ghost != NULL) ghost->get(ghost, req_local)`, S3FIFO.c:360-362. -/
def ghostGet (g : Option FIFO.State) (r : Req) : Res (Option FIFO.State) :=
  match g with
  | none => .ok none
  | some g => FIFO.algo.get g r >>= fun p => .ok (some p.2)

end Verif
