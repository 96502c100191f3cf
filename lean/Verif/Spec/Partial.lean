import Verif.Spec.Cache
/-!
# Reference machines whose calls need not return
-/

namespace Verif.Spec
open Verif

/-- A reference machine: `none` stands for a call that does not return. -/
structure Machine (τ : Type) where
  step : τ → Op → Option (Bool × τ)

/-- A sequence of client calls. -/
def Machine.run {τ : Type} (M : Machine τ) (t : τ) : List Op → Option (List Bool × τ)
  | [] => some ([], t)
  | op :: ops =>
    match M.step t op with
    | none => none
    | some (b, t1) =>
      match M.run t1 ops with
      | none => none
      | some (bs, t2) => some (b :: bs, t2)

/-- An implementation is the machine: on every permitted call sequence, either the machine runs through and the implementation gives the same
answers and, seen through `view`, the same state; or a call of the machine does not return and the implementation fails with `fault`. -/
def IsMachine {σ τ : Type} (A : Algo σ) (s0 : σ) (okOp : Op → Prop) (M : Machine τ) (t0 : τ) (view : σ → τ) (fault : Fault) : Prop :=
  ∀ ops, (∀ op ∈ ops, okOp op) →
    (M.run t0 ops = none ∧ A.run s0 ops = .error fault) ∨
    ∃ out s, Reaches A s0 ops out s ∧ M.run t0 ops = some (out, view s)

end Verif.Spec
