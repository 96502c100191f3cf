import Verif.Spec.Textbook
/-!
# What LeCaR does with its objects

The cached objects are listed by the time of their last access, most recent first, each with its number of accesses since it was inserted.
-/

namespace Verif.Spec.LeCaR
open Verif Verif.Spec

/-- `v` is the least recently used object, and `l'` is what remains without it -/
def TakesLRU (l : List Item) (v : Item) (l' : List Item) : Prop := l = l' ++ [v]

/-- `v` is the least frequently used object, among several the least recently used one, and `l'` is what remains without it -/
def TakesLFU (l : List Item) (v : Item) (l' : List Item) : Prop :=
  ∃ a b, l = a ++ v :: b ∧ l' = a ++ b ∧ (∀ y ∈ l, v.cnt ≤ y.cnt) ∧ ∀ y ∈ b, v.cnt < y.cnt

/-- Who chose a victim. -/
inductive Expert where
  | lru | lfu | both
deriving DecidableEq, Repr

/-- One choice: if both experts propose the same object, it is taken; otherwise a random number is drawn, and `wins` says whether the LRU expert prevails. -/
def Chooses (wins : Nat → Bool) (l : List Item) (draws : List Nat) (v : Item) (e : Expert) (l' : List Item) (draws' : List Nat) : Prop :=
  (TakesLRU l v l' ∧ TakesLFU l v l' ∧ e = .both ∧ draws' = draws) ∨
  ((¬ ∃ u m, TakesLRU l u m ∧ TakesLFU l u m) ∧ draws' = draws.tail ∧
    if wins (draws.headD 0) then TakesLRU l v l' ∧ e = .lru else TakesLFU l v l' ∧ e = .lfu)

/-- a hit: the object becomes the most recent one and its count goes up -/
def Hits (l : List Item) (id : ObjId) (l' : List Item) : Prop :=
  ∃ a x b, l = a ++ x :: b ∧ x.id = id ∧ l' = { x with cnt := x.cnt + 1 } :: (a ++ b)

/-- `c` is what remains of the history `l` when its oldest entries are dropped until it has at most `half` bytes -/
def TrimmedTo (md half : Nat) (l c : Contents) : Prop :=
  ∃ t, l = c ++ t ∧ bytes md c ≤ half ∧ ∀ x t', t = x :: t' → half < bytes md (c ++ [x])

/-- Evicted objects that are remembered: the histories of the two experts, most recent first, and what both agreed to evict. -/
structure Ghosts where
  lru : Contents
  lfu : Contents
  both : ObjId × Nat → Prop

/-- The victim `x` goes to the history of the expert who chose it, which is cut to half of the cache size. -/
def Remembers (cs md : Nat) (g : Ghosts) (x : ObjId × Nat) (e : Expert) (g' : Ghosts) : Prop :=
  match e with
  | .lru => TrimmedTo md (cs / 2) (x :: g.lru) g'.lru ∧ g'.lfu = g.lfu ∧ g'.both = g.both
  | .lfu => TrimmedTo md (cs / 2) (x :: g.lfu) g'.lfu ∧ g'.lru = g.lru ∧ g'.both = g.both
  | .both => g'.lru = g.lru ∧ g'.lfu = g.lfu ∧ g'.both = fun y => y = x ∨ g.both y

/-- What evictions work on. -/
structure St where
  l : List Item
  draws : List Nat
  g : Ghosts

/-- The evictions of `vs`, in this order. -/
inductive EvictsAll (cs md : Nat) (wins : Nat → Bool) : St → List Item → St → Prop
  | none (a : St) : EvictsAll cs md wins a [] a
  | one {a b c : St} {v : Item} {vs : List Item} {e : Expert} : Chooses wins a.l a.draws v e b.l b.draws → Remembers cs md a.g v.entry e b.g →
      EvictsAll cs md wins b vs c → EvictsAll cs md wins a (v :: vs) c

/-- The ghosts when one object is forgotten. -/
def forget (id : ObjId) (g : Ghosts) : Ghosts :=
  ⟨g.lru.filter (fun x => x.1 ≠ id), g.lfu.filter (fun x => x.1 ≠ id), fun x => g.both x ∧ x.1 ≠ id⟩

end Verif.Spec.LeCaR
