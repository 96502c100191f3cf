import Verif.Spec.Textbook
/-!
# Textbook caches with a clock

As `Spec/Textbook`, but what the discipline does may depend on the number of requests so far.
-/

namespace Verif.Spec
open Verif
variable {τ : Type}

/-- A textbook cache that counts requests. -/
structure CState (τ : Type) where
  now : Nat
  t : TState τ

/-- One call; a request is counted first. -/
def cstep (D : Nat → Discipline τ) (C md : Nat) (c : CState τ) (op : Op) : Bool × CState τ :=
  match op with
  | .get r => ((tget (D (c.now + 1)) C md c.t r).1, ⟨c.now + 1, (tget (D (c.now + 1)) C md c.t r).2⟩)
  | op => ((tstep (D c.now) C md c.t op).1, ⟨c.now, (tstep (D c.now) C md c.t op).2⟩)

/-- A sequence of client calls. -/
def crun (D : Nat → Discipline τ) (C md : Nat) (c : CState τ) : List Op → List Bool × CState τ
  | [] => ([], c)
  | op :: ops => ((cstep D C md c op).1 :: (crun D C md (cstep D C md c op).2 ops).1, (crun D C md (cstep D C md c op).2 ops).2)

/-- As `Follows`, with the clock. -/
def FollowsClocked {σ : Type} (A : Algo σ) (s0 : σ) (okOp : Op → Prop) (D : Nat → Discipline τ) (C md : Nat) (c0 : CState τ) (view : σ → CState τ) : Prop :=
  ∀ ops, (∀ op ∈ ops, okOp op) → ∃ out s, Reaches A s0 ops out s ∧ crun D C md c0 ops = (out, view s)

end Verif.Spec
