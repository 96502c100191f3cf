import Verif.Spec.Textbook
/-!
# A FIFO queue in front of a SIEVE queue, with ghosts

The cache of `priv/QDLPv0.c` as one would describe it: new objects enter a FIFO queue.  The oldest object of the queue is evicted and remembered as a ghost
if it was not requested again, else it moves to the main queue, which is a SIEVE queue.  An object requested while it is a ghost enters the main queue.
-/

namespace Verif.Spec.QuickDemotion
open Verif Verif.Spec

/-- the size of the cache, of an object's metadata and of the FIFO queue; the main queue and the ghosts get the rest -/
structure Sizes where
  cache : Nat
  md : Nat
  fifo : Nat

def Sizes.main (z : Sizes) : Nat := z.cache - z.fifo

structure Queues where
  /-- newest first; the counter is the number of hits since insertion -/
  fifo : List Item
  main : SieveState
  /-- newest first -/
  ghosts : Contents
deriving DecidableEq, Repr

/-- the cached objects -/
def Queues.contents (q : Queues) : Contents := q.fifo.map Item.entry ++ sieve.contents q.main

/-- A hit is counted in the FIFO queue and marks the object in the main queue. -/
def hit (q : Queues) (r : Req) : Queues :=
  { q with fifo := q.fifo.map (fun x => if x.id = r.id then { x with cnt := x.cnt + 1 } else x), main := sieve.onHit q.main r }

/-- The newest ghosts of at most `g` bytes. -/
def newestWithin (md : Nat) : Nat → Contents → Contents
  | _, [] => []
  | g, x :: l => if x.2 + md ≤ g then x :: newestWithin md (g - (x.2 + md)) l else []

/-- SIEVE evicts from the main queue until it holds at most `z.main` bytes; `n` bounds the number of evictions. -/
def shrinkMain (z : Sizes) : Nat → SieveState → SieveState
  | 0, t => t
  | n + 1, t => if bytes z.md (sieve.contents t) > z.main then shrinkMain z n (sieve.evict t) else t

/-- One eviction: from the FIFO queue if it is larger than its size or there is no other object, else from the main queue. -/
def evict (z : Sizes) (q : Queues) : Queues :=
  if bytes z.md (q.fifo.map Item.entry) > z.fifo ∨ sieve.contents q.main = [] then
    match q.fifo.getLast? with
    | none => q
    | some x =>
      if x.cnt = 0 then { q with fifo := q.fifo.dropLast, ghosts := newestWithin z.md z.main (x.entry :: q.ghosts) }
      else { q with fifo := q.fifo.dropLast,
                    main := shrinkMain z ((sieve.contents q.main).length + 1) ⟨q.main.passed, q.main.ahead ++ [{ x with cnt := 0 }]⟩ }
  else { q with main := sieve.evict q.main }

/-- Evict until `need` bytes are free; `n` bounds the number of evictions. -/
def makeRoom (z : Sizes) (need : Nat) : Nat → Queues → Queues
  | 0, q => q
  | n + 1, q => if bytes z.md q.contents + need ≤ z.cache then q else makeRoom z need n (evict z q)

/-- A new object. -/
def insert (q : Queues) (r : Req) (wasGhost : Bool) : Queues :=
  if wasGhost then { q with main := sieve.insert q.main r } else { q with fifo := ⟨r.id, r.size % u32, 0⟩ :: q.fifo }

/-- One request, with the admission policy.  Every eviction takes an object off the FIFO queue or the main queue, and an object can move from the first to the
second, hence the bound. -/
def get (z : Sizes) (t : Queues × Adm) (r : Req) : Bool × (Queues × Adm) :=
  if r.id ∈ t.1.contents.ids then (true, (hit t.1 r, t.2))
  else
    let q : Queues := { t.1 with ghosts := t.1.ghosts.filter (fun x => x.1 ≠ r.id) }
    if (t.2.admit r).1 = true ∧ r.size + z.md ≤ z.cache then
      (false, (insert (makeRoom z (r.size + z.md) (2 * q.contents.length) q) r (decide (r.id ∈ t.1.ghosts.ids)), (t.2.admit r).2))
    else (false, (q, (t.2.admit r).2))

def gets (z : Sizes) (t : Queues × Adm) : List Req → List Bool × (Queues × Adm)
  | [] => ([], t)
  | r :: rs => ((get z t r).1 :: (gets z (get z t r).2 rs).1, (gets z (get z t r).2 rs).2)

end Verif.Spec.QuickDemotion
