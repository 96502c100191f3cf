import Verif.Spec.ARC
import Verif.Spec.Experts
/-!
# Adaptive replacement whose ghost lists are LRU caches

The rules of `Verif/Spec/ARC.lean`, with the difference that B1 and B2 are themselves textbook LRU caches of `cs` bytes (`Experts.remember`): what enters
one of them may push the oldest ghosts out, and in case IV the oldest ghosts of B2 are forgotten until the four lists hold less than `2 * cs` bytes.
-/

namespace Verif.Spec.Adaptive
open Verif Spec

/-- The oldest object `x` of list `k` becomes the most recent one of the LRU cache `j`. -/
def DemotesLru (cs : Nat) (k j : Lst) (a : Lists) (x : ObjId × Nat) (a' : Lists) : Prop :=
  ∃ c, a k = c ++ [x] ∧ a' = put (put a k c) j (Experts.remember cs (a j) x)

/-- REPLACE: the oldest object of T1 goes to B1, or that of T2 to B2. -/
def ReplacesLru (cs : Nat) (gt eq : Nat → Bool) (inB2 : Bool) (a : Lists) (x : ObjId × Nat) (a' : Lists) : Prop :=
  (FromT1 0 gt eq inB2 a ∧ DemotesLru cs .T1 .B1 a x a') ∨ (¬ FromT1 0 gt eq inB2 a ∧ DemotesLru cs .T2 .B2 a x a')

/-- The oldest ghosts of B2 are forgotten until the lists hold less than `2 * cs` bytes, and no more of them. -/
def Shrinks (cs : Nat) (a a' : Lists) : Prop :=
  ∃ rest gone, a .B2 = rest ++ gone ∧ a' = put a .B2 rest ∧
    bytes 0 (a .T1) + bytes 0 (a .B1) + bytes 0 (a .T2) + bytes 0 rest < 2 * cs ∧
    ∀ y more, gone = y :: more → 2 * cs ≤ bytes 0 (a .T1) + bytes 0 (a .B1) + bytes 0 (a .T2) + bytes 0 (rest ++ [y])

/-- One eviction in case IV (the object is on no list), for a request of `size` bytes and a cache of `cs` bytes. -/
def MissEvictsLru (cs size : Nat) (gt eq : Nat → Bool) (inB2 : Bool) (a : Lists) (x : ObjId × Nat) (a' : Lists) : Prop :=
  if bytes 0 (a .T1) + bytes 0 (a .B1) + size > cs then
    if 0 < bytes 0 (a .B1) then ∃ y a1, Forgets .B1 a y a1 ∧ ReplacesLru cs gt eq inB2 a1 x a'
    else Forgets .T1 a x a'
  else ∃ a1, Shrinks cs a a1 ∧ ReplacesLru cs gt eq inB2 a1 x a'

/-- The requests considered: every object has one size, `sz`, and an object that fits into the cache is smaller than 4 GiB. -/
def Sized (cs : Nat) (sz : ObjId → Nat) (r : Req) : Prop := r.size = sz r.id ∧ (r.size ≤ cs → r.size < u32)

end Verif.Spec.Adaptive
