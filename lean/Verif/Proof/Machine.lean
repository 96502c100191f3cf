import Verif.Spec.Partial
import Verif.Base.Cond
/-!
# From single calls to call sequences, for reference machines
-/

namespace Verif
open Spec
variable {σ τ : Type}

/-- One call of the implementation is one call of the machine. -/
def StepIs (A : Algo σ) (Inv : σ → Prop) (okOp : Op → Prop) (M : Machine τ) (view : σ → τ) (fault : Fault) : Prop :=
  ∀ s op, Inv s → okOp op → (M.step (view s) op = none ∧ A.step s op = .error fault) ∨
    ∃ b s', A.step s op = .ok (b, s') ∧ Inv s' ∧ M.step (view s) op = some (b, view s')

theorem StepIs.isMachine {A : Algo σ} {Inv : σ → Prop} {okOp : Op → Prop} {M : Machine τ} {view : σ → τ} {fault : Fault}
    (h : StepIs A Inv okOp M view fault) {s0 : σ} (h0 : Inv s0) {t0 : τ} (ht : view s0 = t0) : IsMachine A s0 okOp M t0 view fault := by
  subst ht
  intro ops
  induction ops generalizing s0 with
  | nil => intro _; exact .inr ⟨[], s0, rfl, rfl⟩
  | cons op ops ih =>
    intro ho
    rcases h s0 op h0 (ho op (by simp)) with ⟨h1, h2⟩ | ⟨b, s1, h1, hi1, h2⟩
    · exact .inl ⟨by simp [Machine.run, h1], by simp [Algo.run, h2]⟩
    · rcases ih hi1 (fun o h => ho o (by simp [h])) with ⟨g1, g2⟩ | ⟨out, s, g1, g2⟩
      · exact .inl ⟨by simp [Machine.run, h2, g1], by simp [Algo.run, h1, g2]⟩
      · refine .inr ⟨b :: out, s, ?_, by simp [Machine.run, h2, g2]⟩
        unfold Reaches at g1 ⊢
        simp [Algo.run, h1, g1]

theorem StepIs.inv {A : Algo σ} {Inv : σ → Prop} {okOp : Op → Prop} {M : Machine τ} {view : σ → τ} {fault : Fault}
    (h : StepIs A Inv okOp M view fault) {s0 s : σ} (h0 : Inv s0) {ops : List Op} {out : List Bool} (ho : ∀ op ∈ ops, okOp op)
    (hr : Reaches A s0 ops out s) : Inv s := by
  refine run_inv (P := Inv) (okOp := okOp) ?_ h0 ho hr
  intro s op b s' hop hi he
  rcases h s op hi hop with ⟨_, h2⟩ | ⟨b', s1, h1, hi1, _⟩
  · rw [h2] at he; cases he
  · rw [h1] at he; cases he; exact hi1

end Verif
