import Verif.Base.Types
/-!
# Reuse of objects grouped by time of first request (libCacheSim/bin/customized/fast23/{objectInfo,compareGroups}.cpp)

Times are natural numbers; floating-point numbers are exact. The printing is left out.
-/

namespace Verif.GroupReuse
open Verif

/-- the fields of `request_t` that are used -/
structure Rec where
  time : Nat
  id : Nat
deriving DecidableEq, Repr

/-- `struct map_val`, objectInfo.cpp:34-38 -/
structure Val where
  first : Nat
  last : Int
  gaps : List Int
deriving DecidableEq, Repr

/-- `static_cast<int32_t>` -/
def i32 (t : Nat) : Int := ((t : Int) + 2147483648) % 4294967296 - 2147483648

/-- the body of the loop of `compute_obj_reuse_stat`, objectInfo.cpp:50-64: `n_req` and `objmap`, in the order of insertion -/
def step (st : Nat × List (Nat × Val)) (r : Rec) : Res (Nat × List (Nat × Val)) :=
  let n := st.1 + 1
  match st.2.find? (fun p => p.1 = r.id) with
  | none => .ok (n, st.2 ++ [(r.id, ⟨n, i32 r.time, []⟩)])
  | some p =>
    let gap := (r.time : Int) - p.2.last
    if gap ≥ 0 then .ok (n, st.2.map fun q => if q.1 = r.id then (r.id, ⟨p.2.first, i32 r.time, p.2.gaps ++ [gap]⟩) else q)
    else .error .assertFail

/-- the loop, objectInfo.cpp:49-67 -/
def scan : Nat × List (Nat × Val) → List Rec → Res (Nat × List (Nat × Val))
  | st, [] => .ok st
  | st, r :: rs => step st r >>= fun st1 => scan st1 rs

/-- `mathUtils::mean(v, 0, 0)`, utilsMath.h:29-39 -/
def mean (v : List Rat) : Rat := if v = [] then 0 else v.sum / (v.length : Rat)

/-- `obj_reuse_stat`, fast23.h:8-12 -/
structure Stat where
  first : Nat
  reuses : Nat
  mean : Rat
deriving DecidableEq, Repr

/-- the entry made for an object, objectInfo.cpp:75-78 -/
def stat (v : Val) : Stat := ⟨v.first, v.gaps.length, mean (v.gaps.map fun g : Int => (g : Rat))⟩

/-- the second half, objectInfo.cpp:73-89, for a walk through the hash map in the order of `walk` -/
def sorted (walk : List (Nat × Val)) : List Stat := (walk.map fun p => stat p.2).mergeSort fun a b => decide (a.first ≤ b.first)

/-- the loop of `cal_group_metric_over_time`, compareGroups.cpp:36-42 -/
def groups (v : List Rat) (g stop : Nat) : Nat → Nat → Res (List Rat)
  | 0, _ => .error .diverge
  | fuel + 1, pos =>
    if pos + g < stop then groups v g stop fuel (pos + g) >>= fun l => .ok (mean ((v.drop pos).take g) :: l)
    else .ok []

/-- `cal_group_metric_over_time`, compareGroups.cpp:20-42: the objects between the first and the last fifth; line 34 divides by the size of a group -/
def overTime (stats : List Stat) (g : Nat) : Res (List Rat) :=
  if g = 0 then .error .divZero else groups (stats.map Stat.mean) g (stats.length * 4 / 5) (stats.length + 1) (stats.length / 5)

end Verif.GroupReuse
