import Mathlib.Data.List.Nodup
/-!
# Consistent hashing: who is responsible for a key

Points on a circle of 32-bit numbers, each belonging to a server. A key hashed to `h` belongs to the server of the first point at `h` or after it, going round past the largest
point to the smallest.
-/

namespace Verif.Spec

/-- A point of a server on the circle. -/
structure Point where
  point : Nat
  server : Nat
deriving DecidableEq, Repr

/-- `v` is the first point clockwise from `h`. -/
def IsNext (pts : List Point) (h : Nat) (v : Point) : Prop :=
  v ∈ pts ∧ ((h ≤ v.point ∧ ∀ w ∈ pts, h ≤ w.point → v.point ≤ w.point) ∨ ((∀ w ∈ pts, w.point < h) ∧ ∀ w ∈ pts, v.point ≤ w.point))

/-- Server `s` is responsible for the keys hashed to `h`. -/
def Owns (pts : List Point) (h s : Nat) : Prop := ∃ v, IsNext pts h v ∧ v.server = s

/-- No two servers share a point. -/
def NoCollision (pts : List Point) : Prop := ∀ v ∈ pts, ∀ w ∈ pts, v.point = w.point → v.server = w.server

/-- The points in clockwise order from `h` on, all the way round. -/
def Clockwise (pts : List Point) (h : Nat) (order : List Point) : Prop :=
  ∃ L : List Point, L.Perm pts ∧ (L.Pairwise fun v w => v.point ≤ w.point) ∧ order = (L.filter fun v => h ≤ v.point) ++ L.filter fun v => v.point < h

/-- The distinct elements in the order in which they are met, leaving out those with `skip`. -/
def firsts (skip : Nat → Bool) : List Nat → List Nat
  | [] => []
  | s :: l => if skip s then firsts skip l else s :: firsts (fun t => skip t || decide (t = s)) l

end Verif.Spec
