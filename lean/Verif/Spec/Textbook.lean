import Verif.Spec.Cache
/-!
# Textbook caches

The frame in which the disciplines LRU, FIFO, CLOCK, SIEVE, LFU … are specified: a demand cache of `C` bytes that
charges `md` bytes of metadata per object, asks an admission policy, and otherwise follows a `Discipline`.
Everything is a pure total function on mathematical values; there are no pointers, counters or faults.
-/

namespace Verif.Spec
open Verif

/-- A replacement discipline over states `τ`. -/
structure Discipline (τ : Type) where
  /-- the cached objects with their sizes -/
  contents : τ → Contents
  /-- effect of a hit -/
  onHit : τ → Req → τ
  /-- throw out one object (only used when something is cached) -/
  evict : τ → τ
  /-- add a new object; its size is the request's size (as far as 32 bits hold it) -/
  insert : τ → Req → τ
  /-- delete one object on the user's request -/
  remove : τ → ObjId → τ

/-- Throw out objects until `need` more bytes fit (or nothing is left; `n` bounds the number of steps). -/
def makeRoom {τ : Type} (D : Discipline τ) (C md need : Nat) : Nat → τ → τ
  | 0, t => t
  | n + 1, t => if bytes md (D.contents t) + need ≤ C then t else makeRoom D C md need n (D.evict t)

/-- State of a textbook cache: the discipline's state and the admission policy. -/
structure TState (τ : Type) where
  pol : τ
  adm : Adm

variable {τ : Type}

/-- Is the object cached? -/
def holds (D : Discipline τ) (t : TState τ) (id : ObjId) : Bool := decide (id ∈ (D.contents t.pol).ids)

/-- One request. -/
def tget (D : Discipline τ) (C md : Nat) (t : TState τ) (r : Req) : Bool × TState τ :=
  if holds D t r.id then (true, { t with pol := D.onHit t.pol r })
  else
    let t' := { t with adm := (t.adm.admit r).2 }
    if (t.adm.admit r).1 = true ∧ r.size + md ≤ C then
      (false, { t' with pol := D.insert (makeRoom D C md (r.size + md) (D.contents t.pol).length t.pol) r })
    else (false, t')

/-- One client call, with the documented preconditions of evict (something is cached) and insert (the object is
not cached and there is room). -/
def tstep (D : Discipline τ) (C md : Nat) (t : TState τ) : Op → Bool × TState τ
  | .get r => tget D C md t r
  | .find r update => (holds D t r.id, if update ∧ holds D t r.id then { t with pol := D.onHit t.pol r } else t)
  | .remove id => (holds D t id, if holds D t id then { t with pol := D.remove t.pol id } else t)
  | .evict _ => if D.contents t.pol = [] then (false, t) else (true, { t with pol := D.evict t.pol })
  | .insert r =>
    if holds D t r.id = false ∧ bytes md (D.contents t.pol) + r.size + md ≤ C
    then (true, { t with pol := D.insert t.pol r }) else (false, t)

/-- A sequence of client calls. -/
def trun (D : Discipline τ) (C md : Nat) (t : TState τ) : List Op → List Bool × TState τ
  | [] => ([], t)
  | op :: ops =>
    let p := tstep D C md t op
    let q := trun D C md p.2 ops
    (p.1 :: q.1, q.2)

/-- An implementation follows a discipline: every permitted call sequence runs without fault and gives the
answers and, seen through `view`, the state of the textbook cache. -/
def Follows {σ : Type} (A : Algo σ) (s0 : σ) (okOp : Op → Prop) (D : Discipline τ) (C md : Nat)
    (t0 : TState τ) (view : σ → TState τ) : Prop :=
  ∀ ops, (∀ op ∈ ops, okOp op) →
    ∃ out s, Reaches A s0 ops out s ∧ trun D C md t0 ops = (out, view s)

/-! ## The list disciplines -/

/-- Entry of `id` moved to the front. -/
def toFront (l : Contents) (id : ObjId) : Contents :=
  l.filter (fun x => x.1 = id) ++ l.filter (fun x => x.1 ≠ id)

/-- Least recently used: most recent first; a hit moves to the front; the last one is thrown out. -/
def lru : Discipline Contents where
  contents := fun l => l
  onHit := fun l r => toFront l r.id
  evict := List.dropLast
  insert := fun l r => (r.id, r.size % u32) :: l
  remove := fun l id => l.filter (fun x => x.1 ≠ id)

/-- First in first out: newest first; hits change nothing; the last one is thrown out. -/
def fifo : Discipline Contents where
  contents := fun l => l
  onHit := fun l _ => l
  evict := List.dropLast
  insert := fun l r => (r.id, r.size % u32) :: l
  remove := fun l id => l.filter (fun x => x.1 ≠ id)

/-- Most recently used: as LRU, but the first one is thrown out. -/
def mru : Discipline Contents where
  contents := fun l => l
  onHit := fun l r => toFront l r.id
  evict := List.tail
  insert := fun l r => (r.id, r.size % u32) :: l
  remove := fun l id => l.filter (fun x => x.1 ≠ id)

/-! ## CLOCK -/

/-- A cached object with a small counter (CLOCK) or mark (SIEVE). -/
structure Item where
  id : ObjId
  size : Nat
  cnt : Nat
deriving DecidableEq, Repr

abbrev Item.entry (x : Item) : ObjId × Nat := (x.id, x.size)

/-- CLOCK eviction on the objects listed from the hand on (oldest first): an object with a positive counter pays
one unit and goes to the end; the first object with counter 0 is thrown out. -/
def clockEvict : List Item → List Item
  | [] => []
  | x :: l => if x.cnt = 0 then l else clockEvict (l ++ [{ x with cnt := x.cnt - 1 }])
termination_by l => (l.map Item.cnt).sum
decreasing_by simp; omega

/-- `id` is the first object in the list among those with the lowest counter. -/
def IsFirstLowest (l : List Item) (id : ObjId) : Prop :=
  ∃ a x b, l = a ++ x :: b ∧ x.id = id ∧ (∀ y ∈ a, x.cnt < y.cnt) ∧ ∀ y ∈ b, x.cnt ≤ y.cnt

/-- CLOCK with counters up to `maxCnt`; oldest first. -/
def clock (maxCnt : Nat) : Discipline (List Item) where
  contents := fun l => l.map Item.entry
  onHit := fun l r => l.map (fun x => if x.id = r.id ∧ x.cnt < maxCnt then { x with cnt := x.cnt + 1 } else x)
  evict := clockEvict
  insert := fun l r => l ++ [⟨r.id, r.size % u32, 0⟩]
  remove := fun l id => l.filter (fun x => x.id ≠ id)

/-! ## SIEVE -/

/-- SIEVE state: all objects from oldest to newest are `passed ++ ahead`; the hand is on the first object of
`ahead`. -/
structure SieveState where
  passed : List Item
  ahead : List Item
deriving DecidableEq, Repr

/-- The hand wraps to the oldest object when it has run off the newest end. -/
def SieveState.wrap (t : SieveState) : SieveState :=
  match t.ahead with
  | [] => ⟨[], t.passed⟩
  | _ => t

/-- SIEVE eviction: marked objects under the hand lose a mark unit and are passed over; the first unmarked object is
thrown out; the hand then is on its newer neighbour.  `n` bounds the number of steps; every step but the last
takes away one mark unit, so the number of marks plus one is enough. -/
def sieveScan : Nat → SieveState → SieveState
  | 0, t => t
  | n + 1, t =>
    match t.wrap with
    | ⟨_, []⟩ => t
    | ⟨p, x :: a⟩ =>
      if x.cnt = 0 then (SieveState.mk p a).wrap
      else sieveScan n ⟨p ++ [{ x with cnt := x.cnt - 1 }], a⟩

/-- SIEVE: a hit marks the object (mark 1), new objects go to the newest end unmarked. -/
def sieve : Discipline SieveState where
  contents := fun t => (t.passed ++ t.ahead).map Item.entry
  onHit := fun t r =>
    let mark := fun x : Item => if x.id = r.id then { x with cnt := 1 } else x
    ⟨t.passed.map mark, t.ahead.map mark⟩
  evict := fun t => sieveScan (((t.passed ++ t.ahead).map Item.cnt).sum + 1) t
  insert := fun t r => ⟨t.passed, t.ahead ++ [⟨r.id, r.size % u32, 0⟩]⟩
  remove := fun t id => (SieveState.mk (t.passed.filter (fun x => x.id ≠ id)) (t.ahead.filter (fun x => x.id ≠ id))).wrap

/-! ## LFU -/

/-- Put an object behind all objects with the same or a lower count. -/
def placeByCount (l : List Item) (x : Item) : List Item :=
  l.filter (fun y => y.cnt ≤ x.cnt) ++ x :: l.filter (fun y => x.cnt < y.cnt)

/-- Least frequently used: objects in increasing order of their number of accesses since insertion, and among equals in
the order in which they reached that number; the first one is thrown out. -/
def lfu : Discipline (List Item) where
  contents := fun l => l.map Item.entry
  onHit := fun l r =>
    match l.find? (fun x => x.id = r.id) with
    | some x => placeByCount (l.filter (fun y => y.id ≠ r.id)) { x with cnt := x.cnt + 1 }
    | none => l
  evict := List.tail
  insert := fun l r => placeByCount l ⟨r.id, r.size % u32, 1⟩
  remove := fun l id => l.filter (fun x => x.id ≠ id)

end Verif.Spec
