import Verif.Spec.Cache
/-!
# Adaptive replacement, as its users understand it

Specification only, after Megiddo and Modha (FAST 2003): T1 and T2 hold the cached objects, seen once and seen more than once;
B1 and B2 remember what was evicted from them.  A list holds (object, size) pairs, most recent first.
-/

namespace Verif.Spec.Adaptive
open Verif Spec

inductive Lst where
  | T1 | T2 | B1 | B2
deriving DecidableEq, Repr

/-- The contents of the four lists. -/
abbrev Lists := Lst → Contents

/-- List `k` replaced. -/
def put (a : Lists) (k : Lst) (c : Contents) : Lists := fun j => if j = k then c else a j

/-- A list without one object. -/
def without (id : ObjId) (c : Contents) : Contents := c.filter (fun x => x.1 ≠ id)

/-- Object `x` of list `k` is dropped. -/
def drop (a : Lists) (k : Lst) (x : ObjId × Nat) : Lists := put a k (without x.1 (a k))

/-- Object `x` becomes the most recent one of list `k`. -/
def push (a : Lists) (k : Lst) (x : ObjId × Nat) : Lists := put a k (x :: a k)

/-- Case I: a hit moves the object to the recent end of T2. -/
def hit (a : Lists) (k : Lst) (x : ObjId × Nat) : Lists := push (drop a k x) .T2 x

/-- REPLACE takes its victim from T1: T1 holds any bytes, and they exceed the target (`gt`), or meet it (`eq`) while the request hit
B2; or T2 holds no bytes. -/
def FromT1 (md : Nat) (gt eq : Nat → Bool) (inB2 : Bool) (a : Lists) : Prop :=
  (0 < bytes md (a .T1) ∧ (gt (bytes md (a .T1)) = true ∨ eq (bytes md (a .T1)) = true ∧ inB2 = true)) ∨ bytes md (a .T2) = 0

/-- The oldest object `x` of list `k` becomes the most recent one of list `j`. -/
def Demotes (k j : Lst) (a : Lists) (x : ObjId × Nat) (a' : Lists) : Prop :=
  ∃ c, a k = c ++ [x] ∧ a' = push (put a k c) j x

/-- REPLACE: the oldest object of T1 goes to B1, or that of T2 to B2. -/
def Replaces (md : Nat) (gt eq : Nat → Bool) (inB2 : Bool) (a : Lists) (x : ObjId × Nat) (a' : Lists) : Prop :=
  (FromT1 md gt eq inB2 a ∧ Demotes .T1 .B1 a x a') ∨ (¬ FromT1 md gt eq inB2 a ∧ Demotes .T2 .B2 a x a')

/-- The oldest object `x` of list `k` is forgotten. -/
def Forgets (k : Lst) (a : Lists) (x : ObjId × Nat) (a' : Lists) : Prop := ∃ c, a k = c ++ [x] ∧ a' = put a k c

/-- One eviction in case IV (the object is on no list), for a request of `size` bytes and a cache of `cs` bytes. -/
def MissEvicts (cs md size : Nat) (gt eq : Nat → Bool) (inB2 : Bool) (a : Lists) (x : ObjId × Nat) (a' : Lists) : Prop :=
  if bytes md (a .T1) + bytes md (a .B1) + (size + md) > cs then
    if 0 < bytes md (a .B1) then ∃ y a1, Forgets .B1 a y a1 ∧ Replaces md gt eq inB2 a1 x a'
    else Forgets .T1 a x a'
  else if 2 * cs ≤ bytes md (a .T1) + bytes md (a .B1) + bytes md (a .T2) + bytes md (a .B2) ∧ 0 < bytes md (a .B2) then
    ∃ y a1, Forgets .B2 a y a1 ∧ Replaces md gt eq inB2 a1 x a'
  else Replaces md gt eq inB2 a x a'

/-- A number of evictions in a row, with the victims in order. -/
inductive EvictsAll (ev : Lists → ObjId × Nat → Lists → Prop) : Lists → Contents → Lists → Prop
  | none (a : Lists) : EvictsAll ev a [] a
  | one {a a' a'' : Lists} {x : ObjId × Nat} {vs : Contents} : ev a x a' → EvictsAll ev a' vs a'' → EvictsAll ev a (x :: vs) a''

/-- The requests considered: an object that fits into the cache is, with its metadata, smaller than 4 GiB. -/
def Requests (cs md : Nat) (r : Req) : Prop := r.size + md ≤ cs → r.size + md < u32

end Verif.Spec.Adaptive
