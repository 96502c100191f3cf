import Verif.Analyzer.Run

/-!
# What the trace analyzer's numbers are meant to be

Everything here is about the trace alone: the list of its requests, in order.
-/

namespace Verif.Spec.TraceStats
open Verif.Analyzer (Rec)

/-- The requests to one object, each with its position in the trace (the first request has
position 1). -/
def requestsTo (l : List Rec) (id : Nat) : List (Rec × Nat) :=
  (l.zipIdx 1).filter (fun x => decide (x.1.id = id))

/-- How often an object is requested. -/
def freq (l : List Rec) (id : Nat) : Nat := l.countP (fun r => decide (r.id = id))

/-- The objects of the trace, in the order of their first requests. -/
def objects (l : List Rec) : List Nat := (l.map (·.id)).eraseDups

/-- Every request together with the part of the trace before it. -/
def withPastFrom : List Rec → List Rec → List (List Rec × Rec)
  | _, [] => []
  | p, r :: l => (p, r) :: withPastFrom (p ++ [r]) l

/-- Every request together with the part of the trace before it. -/
def withPast (l : List Rec) : List (List Rec × Rec) := withPastFrom [] l

/-- The request before this one to the same object, with its position. -/
def previous (x : List Rec × Rec) : Option (Rec × Nat) := (requestsTo x.1 x.2.id).getLast?

/-- The first request to the object of this one. -/
def creation (x : List Rec × Rec) : Rec := ((requestsTo x.1 x.2.id).head?.map (·.1)).getD x.2

/-- This request is the first to its object. -/
def isFirst (x : List Rec × Rec) : Prop := ∀ q ∈ x.1, q.id ≠ x.2.id

instance : DecidablePred isFirst := fun x => by unfold isFirst; infer_instance

/-- Seconds since the start of the trace. -/
def since (start : Int) (r : Rec) : Nat := (r.time - start).toNat

/-- No earlier request to the same object falls in the same time window. -/
def firstInWindow (w : Nat) (start : Int) (x : List Rec × Rec) : Prop :=
  ∀ q ∈ x.1, q.id = x.2.id → since start q / w ≠ since start x.2 / w

instance (w : Nat) (start : Int) : DecidablePred (firstInWindow w start) := fun x => by
  unfold firstInWindow; infer_instance

/-- Events with their times, each charged to the window that is open when it arrives: the window of
the event before it, and window `k` for the first. -/
def charged {β : Type} (w : Nat) : Nat → List (Nat × β) → List (Nat × β)
  | _, [] => []
  | k, (t, x) :: l => (k, x) :: charged w (t / w) l

/-- The start of the trace: the time of its first request. -/
def start (l : List Rec) : Int := ((l.head?).map (·.time)).getD 0

/-- The time of the last request. -/
def finish (l : List Rec) : Int := ((l.getLast?).map (·.time)).getD 0

/-- The requests with their times since the start. -/
def timeline (l : List Rec) : List (Nat × (List Rec × Rec)) := (withPast l).map (fun x => (since (start l) x.2, x))

/-- The requests charged to window `k`. -/
def chargedTo (w k : Nat) (l : List (Nat × (List Rec × Rec))) : List (List Rec × Rec) :=
  ((charged w 0 l).filter (fun y => decide (y.1 = k))).map (·.2)

/-- The requests that are not the first to their object. -/
def reuses (l : List Rec) : List (Nat × (List Rec × Rec)) := (timeline l).filter (fun y => decide (¬ isFirst y.2))

/-- Seconds, and requests, since the request before to the same object. -/
def gapTime (x : List Rec × Rec) : Nat := ((previous x).map (fun q => (x.2.time - q.1.time).toNat)).getD 0
/-- see `gapTime` -/
def gapReqs (x : List Rec × Rec) : Nat := ((previous x).map (fun q => x.1.length + 1 - q.2)).getD 0

/-- A write: set, replace or compare-and-swap. -/
def isWrite (r : Rec) : Prop := r.op = 3 ∨ r.op = 6 ∨ r.op = 5

instance : DecidablePred isWrite := fun r => by unfold isWrite; infer_instance

/-- The time of the first and of the last request to an object, since the start of the trace. -/
def firstAt (l : List Rec) (id : Nat) : Nat := ((requestsTo l id).head?.map (fun q => since (start l) q.1)).getD 0
/-- see `firstAt` -/
def lastAt (l : List Rec) (id : Nat) : Nat := ((requestsTo l id).getLast?.map (fun q => since (start l) q.1)).getD 0
/-- The positions of these requests. -/
def firstPos (l : List Rec) (id : Nat) : Nat := ((requestsTo l id).head?.map (·.2)).getD 0
/-- see `firstPos` -/
def lastPos (l : List Rec) (id : Nat) : Nat := ((requestsTo l id).getLast?.map (·.2)).getD 0

/-- The traces the analyzer is for: not empty, sorted by time, with fewer than 2³² requests and 2⁶⁴
bytes, and lasting less than 2³¹ seconds (counting the window after the last request). -/
structure Good (w : Nat) (l : List Rec) : Prop where
  window : 0 < w
  nonempty : l ≠ []
  sorted : l.Pairwise (fun a b => a.time ≤ b.time)
  short : finish l - start l + w ≤ 2147483647
  count : l.length < 4294967296
  bytes : (l.map (·.size)).sum < 18446744073709551616

end Verif.Spec.TraceStats
