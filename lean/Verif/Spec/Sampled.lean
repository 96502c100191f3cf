import Verif.Spec.History
import Mathlib.Algebra.Order.Field.Rat
/-!
# Eviction by sampling, in terms of the client's history and the random numbers
-/

namespace Verif.Spec.Sample
open Verif

/-- The cached objects that the first `n` random numbers select, one per number. -/
def sampled (c : Contents) (picks : List Nat) (n : Nat) : Contents :=
  (List.range n).filterMap (fun i => c[picks.getD i 0 % c.length]?)

/-- Starting with the contents `c`, the objects `vs` are evicted one after the other, each time one whose score is lowest among `n` sampled
objects; `c'` remains.  Every eviction uses up `n` random numbers. -/
inductive Victims {P : Type} [LE P] (n : Nat) (score : ObjId × Nat → P) : Contents → List Nat → Contents → Contents → List Nat → Prop
  | nil (c : Contents) (picks : List Nat) : Victims n score c picks [] c picks
  | cons {c picks v vs c' picks'} : v ∈ sampled c picks n → (∀ x ∈ sampled c picks n, score v ≤ score x) →
      Victims n score (c.erase v) (picks.drop n) vs c' picks' → Victims n score c picks (v :: vs) c' picks'

/-- one more call: count it if it is a `get`; when `id` enters (a `get` that misses, or an `insert`), note the count -/
def enterStep (id : ObjId) (acc : Nat × Nat) (e : Op × Bool) : Nat × Nat :=
  match e with
  | (.get r, b) => (acc.1 + 1, if r.id = id ∧ b = false then acc.1 + 1 else acc.2)
  | (.insert r, true) => (acc.1, if r.id = id then acc.1 else acc.2)
  | _ => acc

/-- the number of `get`s made up to and including the call with which `id` last entered the cache -/
def enteredAt (h : List (Op × Bool)) (id : ObjId) : Nat := (h.foldl (enterStep id) (0, 0)).2

/-- The hits per time of an object in the request after the history `h`: 10^8 times its accesses since it entered (the one with which it
entered included), over the requests since then, rounded by `rnd`. -/
def density (rnd : Rat → Rat) (h : List (Op × Bool)) (x : ObjId × Nat) : Rat :=
  rnd (100000000 * (hitsSince h x.1 + 1 : Nat) / (gets h + 1 - enteredAt h x.1 : Nat))

end Verif.Spec.Sample
