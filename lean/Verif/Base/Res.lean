/-!
# Outcomes of modelled C functions

Every modelled C function returns `Res α`: either a value or the reason why the C program has no
defined continuation.  (No C source; this is the semantic domain of the model.)
-/

namespace Verif

/-- The ways a modelled C function can fail to return. -/
inductive Fault where
  /-- a NULL pointer is dereferenced -/
  | nullDeref
  /-- an object that is no longer in the hash table (freed) is dereferenced -/
  | useAfterFree
  /-- a list operation is applied to an object that is not on that list -/
  | notLinked
  /-- an uninitialised variable is read -/
  | uninit
  /-- a memory access outside the object it refers to -/
  | outOfBounds
  /-- a plain `assert` fails (`DEBUG_ASSERT` is compiled out in the default build) -/
  | assertFail
  /-- the program calls `abort()`/`exit()` -/
  | abort
  /-- an integer is divided by zero -/
  | divZero
  /-- the recursion fuel of a loop is used up: the C loop runs longer than the model follows it -/
  | diverge
  /-- a signed integer computation leaves the range of its type -/
  | overflow
deriving DecidableEq, Repr

/-- Result of a modelled C function. -/
abbrev Res (α : Type) := Except Fault α

deriving instance DecidableEq for Except

@[simp] theorem Res.bind_ok {α β : Type} (a : α) (f : α → Res β) :
    ((Except.ok a : Res α) >>= f) = f a := rfl

@[simp] theorem Res.bind_error {α β : Type} (e : Fault) (f : α → Res β) :
    ((Except.error e : Res α) >>= f) = .error e := rfl

@[simp] theorem Res.pure_eq {α : Type} (a : α) : (pure a : Res α) = .ok a := rfl

theorem Res.bind_eq_ok {α β : Type} {x : Res α} {f : α → Res β} {b : β} :
    (x >>= f) = .ok b ↔ ∃ a, x = .ok a ∧ f a = .ok b := by
  cases x <;> simp

end Verif
