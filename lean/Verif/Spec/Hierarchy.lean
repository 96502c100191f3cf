import Mathlib.Data.List.Perm.Basic
/-!
# Merging traces

A trace is a list of records. A merge of several traces takes the records of all of them, those of each trace in their order.
-/

namespace Verif.Spec

/-- One line of an L1 miss trace. -/
structure Rec where
  ts : Nat
  id : Nat
  sz : Nat
deriving DecidableEq, Repr

/-- `out` is a merge of the traces: its records can be labelled with the number of a trace such that those with label `i` are trace `i`. -/
def IsMerge (traces : List (List Rec)) (out : List Rec) : Prop :=
  ∃ labelled : List (Rec × Nat), labelled.map Prod.fst = out ∧ (∀ x ∈ labelled, x.2 < traces.length) ∧
    ∀ i, (labelled.filter fun x => x.2 = i).map Prod.fst = traces.getD i []

/-- In the order of time. -/
def InTime (l : List Rec) : Prop := l.Pairwise fun a b => a.ts ≤ b.ts

end Verif.Spec
