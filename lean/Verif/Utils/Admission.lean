import Verif.Base.Types
import Verif.Utils.MyMath
/-!
# libCacheSim/cache/admission/{bloomfilter,size,prob}.c, with the pointer conversions spelled out

`Verif/Base/Types.lean` has the abridged version that the cache model uses; `Verif/Props/Admission.lean` relates the two.
-/

namespace Verif.Admission
open Verif

/-- `GSIZE_TO_POINTER`: the 64-bit id itself -/
def gsizeToPointer (id : Nat) : Nat := id

/-- a GLib hash table with `g_direct_hash`/`g_direct_equal`: keys and values are pointers; `g_hash_table_insert` replaces
the value of an equal key -/
abbrev GTable := List (Nat × Nat)

/-- `g_hash_table_lookup`: NULL (0) if absent -/
def lookup (t : GTable) (k : Nat) : Nat := ((t.find? (fun e => e.1 == k)).map (·.2)).getD 0

/-- `g_hash_table_insert` -/
def insert (t : GTable) (k v : Nat) : GTable := (k, v) :: t.filter (fun e => e.1 != k)

/-- `bloomfilter_admit`, bloomfilter.c:18-31.  `GPOINTER_TO_INT(n_times) + 1` is signed: no defined result when it
exceeds `INT_MAX`. -/
def bloomAdmit (t : GTable) (id : Nat) : Res (Bool × GTable) :=
  let key := gintToPointer id
  let n := lookup t (gsizeToPointer id)
  if n = 0 then .ok (false, insert t key 1)
  else if n + 1 < 2147483648 then .ok (true, insert t key (gintToPointer (n + 1)))
  else .error .outOfBounds

/-- the answers to a sequence of requests, from an empty table -/
def bloomRun (t : GTable) : List Nat → Res (List Bool × GTable)
  | [] => .ok ([], t)
  | id :: ids => bloomAdmit t id >>= fun r => bloomRun r.2 ids >>= fun q => .ok (r.1 :: q.1, q.2)

/-- `size_admit`, size.c:16-23 -/
def sizeAdmit (threshold : Int) (size : Int) : Bool := decide (size < threshold)

/-- `prob_admit`, prob.c:19-26: the generator's next value modulo `MAX_MODULE`, compared as unsigned 64-bit with the
`int` threshold (`admission_probability * MAX_MODULE`, between 0 and 10^7) -/
def probAdmit (seed : Nat) (probInt : Nat) : Bool × Nat :=
  (decide (MyMath.nextRand seed % 10000000 < probInt), MyMath.nextRand seed)

end Verif.Admission
