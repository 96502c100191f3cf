import Verif.Analyzer.FutureReuse

/-!
# What the future-reuse table should say

Only about the trace: the requests before a request, the first of them to its object, and so on.
-/

namespace Verif.FutureReuseSpec

open Verif.Analyzer (Look int64Max)

def pastFrom : List Look → List Look → List (List Look × Look)
  | _, [] => []
  | p, r :: l => (p, r) :: pastFrom (p ++ [r]) l

/-- Every request together with the part of the trace before it. -/
def past (l : List Look) : List (List Look × Look) := pastFrom [] l

/-- The earlier requests to the object of this one. -/
def earlier (x : List Look × Look) : List Look := x.1.filter (fun q => q.id = x.2.id)

/-- When the object of this request was first requested. -/
def created (x : List Look × Look) : Int := ((earlier x).headD x.2).time

/-- How long ago that was. -/
def age (x : List Look × Look) : Int := x.2.time - created x

/-- The time since the last earlier request to the object; 0 if there is none. -/
def accessAge (x : List Look × Look) : Int := x.2.time - ((earlier x).getLastD x.2).time

/-- The object was first requested in the day after the warm-up. -/
def Tracked (warmup : Int) (x : List Look × Look) : Prop := warmup ≤ created x ∧ created x ≤ warmup + 86400

instance (warmup : Int) (x : List Look × Look) : Decidable (Tracked warmup x) := by unfold Tracked; infer_instance

/-- The trace says that there is a later request to the object. -/
def Reused (x : List Look × Look) : Prop := 0 ≤ x.2.next ∧ x.2.next ≠ int64Max

instance (x : List Look × Look) : Decidable (Reused x) := by unfold Reused; infer_instance

/-- A trace in the order of time, from time 0, that says of each request when the next one is, is shorter than 2^31
requests, and has times below 2^31. -/
structure Good (l : List Look) : Prop where
  ordered : l.Pairwise (fun a b => a.time ≤ b.time)
  times : ∀ r ∈ l, 0 ≤ r.time ∧ r.time < 2147483648
  known : ∀ r ∈ l, r.next ≠ -2
  short : l.length < 2147483648

/-- No object of the table is requested 80 days after its first request, or later. -/
def Recent (warmup : Int) (l : List Look) : Prop := ∀ x ∈ past l, Tracked warmup x → age x < 80 * 86400

/-- The requests to objects of the table with an age from `a` to (not including) `b`. -/
def aged (warmup a b : Int) (l : List Look) : List (List Look × Look) :=
  (past l).filter (fun x => decide (Tracked warmup x) && decide (a ≤ age x) && decide (age x < b))

def reused (l : List (List Look × Look)) : List (List Look × Look) := l.filter (fun x => decide (Reused x))
def stopped (l : List (List Look × Look)) : List (List Look × Look) := l.filter (fun x => decide (¬ Reused x))

/-- How many requests there were, in all, to the objects of these requests before them. -/
def hits (l : List (List Look × Look)) : Nat := (l.map (fun x => (earlier x).length)).sum

end Verif.FutureReuseSpec
