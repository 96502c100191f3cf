import Verif.Algo.TTLFIFO
/-!
# What a cache that evicts by time of expiry does

The content is the list of the cached objects, in the order in which they came or were renewed.
-/

namespace Verif.Spec.Expiry
open Verif Verif.TTLFIFO

/-- bytes cached -/
def total (l : List TObj) : Nat := (l.map TObj.size).sum

/-- the object that expires first, and among those the one that came first -/
def victim (l : List TObj) : Option TObj := l.find? fun o => l.all fun p => decide (o.exp ≤ p.exp)

/-- evict until the content fits -/
def fit (cs : Nat) : Nat → List TObj → List TObj
  | 0, l => l
  | n + 1, l => if total l ≤ cs then l else match victim l with
    | some o => fit cs n (l.filter fun p => p.id ≠ o.id)
    | none => l

/-- the object is cached and has not expired -/
def Fresh (l : List TObj) (r : TReq) : Prop := ∃ o ∈ l, o.id = r.id ∧ r.time ≤ o.exp

instance (l : List TObj) (r : TReq) : Decidable (Fresh l r) := by unfold Fresh; infer_instance

/-- the object is cached -/
def Holds (l : List TObj) (id : ObjId) : Prop := ∃ o ∈ l, o.id = id

instance (l : List TObj) (id : ObjId) : Decidable (Holds l id) := by unfold Holds; infer_instance

/-- what a request does: nothing if the object is fresh; an expired object is renewed with the size it had; a new one is added, if it fits at all; then objects are evicted as needed -/
def serve (cs : Nat) (l : List TObj) (r : TReq) : List TObj :=
  if Fresh l r then l
  else if Holds l r.id then (l.filter fun p => p.id ≠ r.id) ++ (l.filter fun p => p.id = r.id).map fun o => { o with exp := r.time + r.ttl }
  else if r.size ≤ cs then fit cs (l.length + 1) (l ++ [⟨r.id, r.size, r.time + r.ttl⟩])
  else l

/-- the hits and the final content -/
def serveAll (cs : Nat) : List TObj → List TReq → List Bool × List TObj
  | l, [] => ([], l)
  | l, r :: rs => let q := serveAll cs (serve cs l r) rs; (decide (Fresh l r) :: q.1, q.2)

/-- time does not go back, and nothing expires `M` or more seconds after the first request -/
def Horizon (M : Nat) (rs : List TReq) : Prop :=
  rs.Pairwise (fun a b => a.time ≤ b.time) ∧ ∀ a, rs.head? = some a → ∀ r ∈ rs, r.time + r.ttl < a.time + M

end Verif.Spec.Expiry
