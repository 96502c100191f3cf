import Verif.Spec.OneSize
/-!
# Vocabulary for LHD: the requests considered, and the meaning of a hit density
-/

namespace Verif.Spec.LHD
open Verif

/-- Requests for objects that are not empty and whose size with metadata fits in 32 bits. -/
def Sized (md : Nat) (r : Req) : Prop := 0 < r.size ∧ r.size + md < u32

/-- the same, and every object has one size, `sz` -/
def SizedOnce (sz : ObjId → Nat) (md : Nat) (r : Req) : Prop := Sized md r ∧ r.size = sz r.id

/-- the sum of `f` over the ages from `a` to 19999, the largest -/
def fromAge (f : Nat → Rat) (a : Nat) : Rat := ((List.range' a (20000 - a)).map f).sum

/-- The hit density of a class at age `a`, given how many of its objects were hit and how many evicted at each age.
An object that has reached age `a` is hit with probability (hits from `a` on) / (hits and evictions from `a` on).
Its remaining lifetime is on average (the sum over b ≥ a of the objects that reach age b) / (hits and evictions from `a` on).
The hit density is the quotient of the two.  Without data it is 0. -/
def modelled (hits evictions : Nat → Rat) (a : Nat) : Rat :=
  if fromAge (fun b => hits b + evictions b) a > 1 / 100000 then
    fromAge hits a / fromAge (fun b => fromAge (fun c => hits c + evictions c) b) a
  else 0

end Verif.Spec.LHD
