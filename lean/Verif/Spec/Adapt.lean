import Verif.Spec.Cache
/-!
# Sharing a cache between two parts whose sizes are adapted

Vocabulary for S3FIFOd: a small part and a main part share the cache; bytes are moved from one to the other step by step.
-/

namespace Verif.Spec.Adapt
open Verif Verif.Spec

/-- the three sizes: of the small part, of the queue of remembered victims, of the main part -/
structure Shares where
  small : Nat
  ghost : Int
  main : Nat
deriving DecidableEq, Repr

/-- a thousandth of the smaller part, but at least one byte -/
def oneStep (x : Shares) : Nat := if min x.small x.main < 2000 then 1 else min x.small x.main / 1000

/-- `a` and `b` count how often recent victims of the small and of the main part were requested again.  The part with more than twice the count of the
other one grows by a step, unless the other one is down to a hundredth of the cache. -/
def adjust (cs a b : Nat) (x : Shares) : Shares :=
  if a > 2 * b ∧ x.main > cs / 100 then ⟨x.small + oneStep x, x.ghost + oneStep x, x.main - oneStep x⟩
  else if b > 2 * a ∧ x.small > cs / 100 then ⟨x.small - oneStep x, x.ghost - oneStep x, x.main + oneStep x⟩
  else x

/-- Before each request: nothing is adjusted until the main part has recent victims and there are more than 100 such requests. -/
def next (cs : Nat) (victims : Bool) (a b : Nat) (x : Shares) : Shares := if victims = true ∧ a + b > 100 then adjust cs a b x else x

/-- the counts after that: they start again while the main part has no recent victims, and shrink by a fifth after each adjustment -/
def age (victims : Bool) (a b : Nat) : Nat × Nat := if victims = false then (0, 0) else if a + b > 100 then (a * 4 / 5, b * 4 / 5) else (a, b)

/-- a hundredth of the cache, less a step -/
def floorOf (cs : Nat) : Nat := cs / 100 - cs / 100 / 1000

/-- Requests for objects that fit into the main part however far it shrinks (`fs` is the initial size of the small part), or do not fit into the whole
cache; where the client evicts, of objects that are not empty. -/
def FitsMain (cs fs : Nat) (p : Perms) (r : Req) : Prop :=
  ((r.size ≤ cs - fs ∧ r.size ≤ floorOf cs) ∨ cs < r.size) ∧ (p.ev = true → 0 < r.size % u32)

end Verif.Spec.Adapt
