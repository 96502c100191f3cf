import Verif.Base.Res
/-!
# libCacheSim/traceReader/sampling/{spatial,temporal}.c
-/

namespace Verif.Sampling
open Verif

/-- the request fields the samplers use: `obj_id` and the cached hash value `hv` (0: not yet computed) -/
structure SReq where
  id : Nat
  hv : Nat
deriving DecidableEq, Repr

/-- `spatial_sample`, spatial.c:13-21, for the hash function `hash` (`get_hash_value_int_64`) and ratio inverse `inv`:
the decision and the request afterwards.  A remainder by zero has no result. -/
def spatialSample (hash : Nat → Nat) (inv : Nat) (r : SReq) : Res (Bool × SReq) :=
  let r' := if r.hv = 0 then { r with hv := hash r.id } else r
  if inv = 0 then .error .outOfBounds
  else .ok (decide (r'.hv % inv = 0), r')

/-- a trace read through a spatial sampler (the loop at reader.c:390-400 keeps reading until a request is sampled): the
requests delivered.  Readers clear `hv` before each read (reader.c:285). -/
def spatialTrace (hash : Nat → Nat) (inv : Nat) : List SReq → Res (List SReq)
  | [] => .ok []
  | r :: rs => spatialSample hash inv r >>= fun q =>
      spatialTrace hash inv rs >>= fun out => .ok (if q.1 then q.2 :: out else out)

/-- `temporal_sample`, temporal.c:16-25: `n_samples` is an `int`; the decision and the counter afterwards -/
def temporalSample (inv : Int) (n : Int) : Bool × Int := if n + 1 = inv then (true, 0) else (false, n + 1)

/-- the decisions for `k` requests -/
def temporalRun (inv : Int) : Int → Nat → List Bool
  | _, 0 => []
  | n, k + 1 => (temporalSample inv n).1 :: temporalRun inv (temporalSample inv n).2 k

end Verif.Sampling
