import Verif.Tools.GroupReuse
/-!
# What the statistics of reuse mean
-/

namespace Verif.Spec.Reuses
open Verif Verif.GroupReuse

/-- the objects of the trace in the order of their first requests -/
def objects (rs : List Rec) : List Nat := rs.foldl (fun l r => if r.id ∈ l then l else l ++ [r.id]) []

/-- the times of the requests for an object -/
def times (rs : List Rec) (id : Nat) : List Nat := (rs.filter fun r => r.id = id).map Rec.time

/-- the number of the first request for an object, from 1 on; how often it was requested again; and the time between first and last request per reuse -/
def reuse (rs : List Rec) (id : Nat) : Stat :=
  let t := times rs id
  ⟨rs.findIdx (fun r => r.id = id) + 1, t.length - 1, if t.length ≤ 1 then 0 else ((((t.getLast?.getD 0 : Nat) : Int) - ((t.head?.getD 0 : Nat) : Int) : Int) : Rat) / ((t.length - 1 : Nat) : Rat)⟩

/-- time does not go back and fits 31 bits -/
def Clock (rs : List Rec) : Prop := rs.Pairwise (fun a b => a.time ≤ b.time) ∧ ∀ r ∈ rs, r.time < 2147483648

/-- the mean of some numbers -/
def average (v : List Rat) : Rat := v.sum / (v.length : Rat)

end Verif.Spec.Reuses
