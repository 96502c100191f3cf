import Verif.Prefetch.Base
/-!
# OBL (one-block lookahead): libCacheSim/cache/prefetch/OBL.c

`block_size` and `sequential_confidence_k` are positive 32-bit integers (the creator exits for `k ≤ 0`, OBL.c:67-70).
-/

namespace Verif.Prefetch.OBL
open Verif

/-- the range of `obj_id_t` -/
abbrev u64 : Nat := 18446744073709551616

/-- `OBL_params_t`, OBL.h:12-20 -/
structure State where
  block : Nat
  k : Nat
  doPrefetch : Bool
  cur : Nat
  /-- `prev_access_block`, an array of `k` ids -/
  prev : Nat → ObjId

/-- `set_OBL_params`, OBL.c:63-76 -/
def create (block k : Nat) : State := { block, k, doPrefetch := false, cur := 0, prev := fun _ => u64 - 1 }

/-- `OBL_handle_find`, OBL.c:91-108; the difference of ids is that of unsigned 64-bit integers. -/
def handleFind (o : State) (r : Req) : State :=
  let cur := (o.cur + 1) % o.k
  { o with
    doPrefetch := (List.range o.k).all (fun i => o.prev ((o.cur + 1 + i) % o.k) == (r.id + u64 - o.k + i) % u64)
    cur := cur
    prev := fun j => if j = cur then r.id else o.prev j }

/-- the request built by `OBL_prefetch`, OBL.c:119-121, request.h:71-83 -/
def nextBlock (o : State) (r : Req) : Req := { id := (r.id + 1) % u64, size := o.block, next := -2 }

/-- `OBL_prefetch`, OBL.c:116-132 -/
def prefetch {σ : Type} (A : Algo σ) (s : σ × State) (r : Req) : Res (σ × State) :=
  if s.2.doPrefetch then
    fetch A s.2.block r (nextBlock s.2 r) s.1 >>= fun x => .ok (x.2, { s.2 with doPrefetch := false })
  else .ok s

/-- the hooks set by `create_OBL_prefetcher`, OBL.c:164-168 -/
def hooks (σ : Type) : Prefetcher σ State := { handleFind := fun o r => .ok (handleFind o r), prefetch := fun A s r => prefetch A s r }

end Verif.Prefetch.OBL
