import Verif.Spec.Cache
/-!
A call sequence used by the `example`s beside the theorems, to show that their hypotheses are met by non-trivial
executions: hits, misses, evictions, a removal, an explicit eviction, an explicit insertion and an object that is
too large.
-/

namespace Verif.Props
open Verif Verif.Spec

def demo : List Op :=
  [.get ⟨1, 4, -2⟩, .get ⟨2, 3, -2⟩, .get ⟨1, 4, -2⟩, .get ⟨3, 3, -2⟩, .get ⟨4, 2, -2⟩, .find ⟨3, 3, -2⟩ false,
   .find ⟨1, 4, -2⟩ true, .get ⟨7, 30, -2⟩, .get ⟨2, 3, -2⟩, .remove 4, .remove 9, .get ⟨1, 4, -2⟩, .get ⟨5, 1, -2⟩,
   .get ⟨6, 1, -2⟩, .get ⟨6, 1, -2⟩, .evict ⟨0, 0, -2⟩, .insert ⟨8, 1, -2⟩]

theorem demo_calls (md : Nat) (h : md ≤ 1000) : ∀ op ∈ demo, Calls {} (SizeOk md) op := by
  intro op hop
  simp only [demo, List.mem_cons, List.not_mem_nil, or_false] at hop
  rcases hop with rfl | rfl | rfl | rfl | rfl | rfl | rfl | rfl | rfl | rfl | rfl | rfl | rfl | rfl | rfl | rfl | rfl <;>
    simp [Calls, SizeOk, u32] <;> omega

/-- The demo without the explicit eviction. -/
def demoNE : List Op := demo.filter (fun op => match op with | .evict _ => false | _ => true)

theorem demoNE_calls : ∀ op ∈ demoNE, Calls { ev := false } (AnyTwoFit 10 0) op := by
  intro op hop
  have : demoNE = [.get ⟨1, 4, -2⟩, .get ⟨2, 3, -2⟩, .get ⟨1, 4, -2⟩, .get ⟨3, 3, -2⟩, .get ⟨4, 2, -2⟩,
    .find ⟨3, 3, -2⟩ false, .find ⟨1, 4, -2⟩ true, .get ⟨7, 30, -2⟩, .get ⟨2, 3, -2⟩, .remove 4, .remove 9,
    .get ⟨1, 4, -2⟩, .get ⟨5, 1, -2⟩, .get ⟨6, 1, -2⟩, .get ⟨6, 1, -2⟩, .insert ⟨8, 1, -2⟩] := rfl
  rw [this] at hop
  simp only [List.mem_cons, List.not_mem_nil, or_false] at hop
  rcases hop with rfl | rfl | rfl | rfl | rfl | rfl | rfl | rfl | rfl | rfl | rfl | rfl | rfl | rfl | rfl | rfl <;>
    simp [Calls, AnyTwoFit, SizeOk, u32]

/-- The demo with next access times. -/
def demoNext : List Op :=
  [.get ⟨1, 4, 3⟩, .get ⟨2, 3, 9⟩, .get ⟨1, 4, 12⟩, .get ⟨3, 3, 40⟩, .get ⟨4, 2, int64Max⟩, .find ⟨3, 3, 40⟩ false,
   .find ⟨1, 4, 12⟩ true, .get ⟨7, 30, int64Max⟩, .get ⟨2, 3, 30⟩, .remove 4, .remove 9, .get ⟨1, 4, 20⟩, .get ⟨5, 1, int64Max⟩,
   .get ⟨6, 1, 15⟩, .get ⟨6, 1, 22⟩, .evict ⟨0, 0, -2⟩, .insert ⟨8, 1, 25⟩]

/-- random choices for the demos -/
def demoPicks : List Nat := [7, 3, 12, 0, 5, 2, 9, 1, 4]

/-- the end state of a run (the start state if it faults) -/
def after {σ : Type} (A : Algo σ) (s0 : σ) (ops : List Op) : σ :=
  match A.run s0 ops with
  | .ok p => p.2
  | .error _ => s0

/-- the answers of a run that does not fault -/
def answers {σ : Type} (A : Algo σ) (s0 : σ) (ops : List Op) : Option (List Bool) :=
  match A.run s0 ops with
  | .ok p => some p.1
  | .error _ => none

/-- the fault a run ends with, if any -/
def faultOf {σ : Type} (A : Algo σ) (s0 : σ) (ops : List Op) : Option Fault :=
  match A.run s0 ops with
  | .ok _ => none
  | .error f => some f

theorem reaches_after {σ : Type} {A : Algo σ} {s0 : σ} {ops : List Op} {out : List Bool} (h : answers A s0 ops = some out) :
    Spec.Reaches A s0 ops out (after A s0 ops) := by
  unfold answers at h
  unfold Spec.Reaches after
  cases e : A.run s0 ops with
  | error f => rw [e] at h; cases h
  | ok p => rw [e] at h; injection h with h; rw [← h]

theorem get_after {σ : Type} {A : Algo σ} {s : σ} {r : Req} {b : Bool} (h : answers A s [.get r] = some [b]) :
    A.get s r = .ok (b, after A s [.get r]) := by
  unfold answers at h
  unfold after
  simp only [Algo.run, Algo.step] at h ⊢
  cases e : A.get s r with
  | error f => rw [e] at h; cases h
  | ok p => rw [e] at h; simp only [Res.bind_ok, Option.some.injEq, List.cons.injEq, and_true] at h ⊢; rw [← h]

/-- the answer of a single call that does not fault -/
def ansOf {α σ : Type} (x : Res (α × σ)) : Option α := match x with | .ok p => some p.1 | .error _ => none
/-- the state after a single call (`d` if it faults) -/
def stOf {α σ : Type} (d : σ) (x : Res (α × σ)) : σ := match x with | .ok p => p.2 | .error _ => d
/-- the fault of a single call -/
def errOf {α : Type} (x : Res α) : Option Fault := match x with | .ok _ => none | .error f => some f

theorem res_ok {α σ : Type} (d : σ) {x : Res (α × σ)} {a : α} (h : ansOf x = some a) : x = .ok (a, stOf d x) := by
  cases x with
  | error f => cases h
  | ok p => cases h; rfl

theorem res_err {α : Type} {x : Res α} {f : Fault} (h : errOf x = some f) : x = .error f := by
  cases x with
  | ok p => cases h
  | error g => cases h; rfl

end Verif.Props
