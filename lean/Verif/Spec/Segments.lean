import Verif.Spec.Cache
/-!
# Segmented LRU, as its users understand it

Specification only: segments are lists of (object, size), most recent first; segment 0 is the lowest one.
-/

namespace Verif.Spec.Segmented
open Verif Spec

/-- The contents of every segment, most recent object first. -/
abbrev Segs := Nat → Contents

/-- Segment `k` replaced. -/
def put (a : Segs) (k : Nat) (c : Contents) : Segs := fun j => if j = k then c else a j

/-- The longest run of most recent objects that fits in `room` bytes. -/
def keep : Nat → Contents → Contents
  | _, [] => []
  | room, x :: c => if x.2 ≤ room then x :: keep (room - x.2) c else []

/-- The objects that do not fit. -/
def spill (room : Nat) (c : Contents) : Contents := c.drop (keep room c).length

/-- Segment `k` keeps its most recent objects within its limit; what does not fit goes to the recent end of the next
lower segment, which then does the same; what does not fit in the lowest segment leaves the cache. -/
def settle (lim : Nat → Nat) : Nat → Segs → Segs
  | 0, a => put a 0 (keep (lim 0) (a 0))
  | k + 1, a =>
    let a1 := put a (k + 1) (keep (lim (k + 1)) (a (k + 1)))
    if spill (lim (k + 1)) (a (k + 1)) = [] then a1
    else settle lim k (put a1 k (spill (lim (k + 1)) (a (k + 1)) ++ a1 k))

/-- Segment contents without one object. -/
def without (id : ObjId) (c : Contents) : Contents := c.filter (fun x => x.1 ≠ id)

/-- A hit on object `x` in segment `k` of `n`: in the top segment it becomes the most recent object; elsewhere it moves to
the recent end of the segment above, which is then settled. -/
def hit (lim : Nat → Nat) (n : Nat) (a : Segs) (k : Nat) (x : ObjId × Nat) : Segs :=
  if k + 1 = n then put a k (x :: without x.1 (a k))
  else settle lim (k + 1) (put (put a k (without x.1 (a k))) (k + 1) (x :: a (k + 1)))

/-- `k` is the segment a new object of `size` bytes goes to: the lowest one with room for it, segment 0 if none has. -/
def Target (lim : Nat → Nat) (n : Nat) (a : Segs) (size k : Nat) : Prop :=
  (k < n ∧ bytes 0 (a k) + size ≤ lim k ∧ ∀ j, j < k → lim j < bytes 0 (a j) + size) ∨
    (k = 0 ∧ ∀ j, j < n → lim j < bytes 0 (a j) + size)

/-- `x` is the oldest object of the lowest segment that holds any bytes, and `a'` is what is left without it. -/
def EvictsLowest (n : Nat) (a : Segs) (x : ObjId × Nat) (a' : Segs) : Prop :=
  ∃ k c, k < n ∧ 0 < bytes 0 (a k) ∧ (∀ j, j < k → bytes 0 (a j) = 0) ∧ a k = c ++ [x] ∧ a' = put a k c

/-- A number of such evictions in a row, with the victims in order. -/
inductive EvictsAll (n : Nat) : Segs → Contents → Segs → Prop
  | none (a : Segs) : EvictsAll n a [] a
  | one {a a' a'' : Segs} {x : ObjId × Nat} {vs : Contents} : EvictsLowest n a x a' → EvictsAll n a' vs a'' → EvictsAll n a (x :: vs) a''

/-- The requests considered: objects that fit into segment 0 are smaller than 4 GiB, and not empty if the client calls `evict`; a client that calls
`insert` only requests objects that fit into segment 0. -/
def Requests (lim : Nat → Nat) (p : Perms) (r : Req) : Prop :=
  (r.size ≤ lim 0 → r.size < 2 ^ 32 ∧ (p.ev = true → 0 < r.size)) ∧ (p.ins = true → r.size ≤ lim 0)

/-! ### First-in-first-out segments -/

/-- A hit on object `x` in segment `k` of `n`: nothing happens in the top segment; elsewhere the object moves to the recent end of the segment above,
which is then settled. -/
def fifoHit (lim : Nat → Nat) (n : Nat) (a : Segs) (k : Nat) (x : ObjId × Nat) : Segs :=
  if k + 1 = n then a else settle lim (k + 1) (put (put a k (without x.1 (a k))) (k + 1) (x :: a (k + 1)))

/-- `x` is the oldest object of the lowest segment that is not empty, and `a'` is what is left without it. -/
def EvictsOldest (n : Nat) (a : Segs) (x : ObjId × Nat) (a' : Segs) : Prop :=
  ∃ k c, k < n ∧ (∀ j, j < k → a j = []) ∧ a k = c ++ [x] ∧ a' = put a k c

/-- A number of such evictions in a row, with the victims in order. -/
inductive EvictsOldestAll (n : Nat) : Segs → Contents → Segs → Prop
  | none (a : Segs) : EvictsOldestAll n a [] a
  | one {a a' a'' : Segs} {x : ObjId × Nat} {vs : Contents} : EvictsOldest n a x a' → EvictsOldestAll n a' vs a'' → EvictsOldestAll n a (x :: vs) a''

/-- The requests considered: objects that fit into a segment of `per` bytes are smaller than 4 GiB; a client that calls `insert` only requests
objects that fit into a segment. -/
def Small (per : Nat) (p : Perms) (r : Req) : Prop := (r.size ≤ per → r.size < 2 ^ 32) ∧ (p.ins = true → r.size ≤ per)

/-! ### Segments that are caches of their own -/

/-- The requests considered for segments of `per` bytes each, in objects of `md` bytes of metadata: every object has one size `sz`; objects that fit
into a segment are smaller than 4 GiB, and not empty if the client calls `evict`; a client that calls `insert` only requests objects that fit into a
segment. -/
def Steady (sz : ObjId → Nat) (per md : Nat) (p : Perms) (r : Req) : Prop :=
  r.size = sz r.id ∧ (r.size + md ≤ per → r.size + md < 2 ^ 32 ∧ (p.ev = true → 0 < r.size + md)) ∧ (p.ins = true → r.size + md ≤ per)

end Verif.Spec.Segmented
