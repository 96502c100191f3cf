import Verif.Spec.Textbook
/-!
# The textbook 2Q cache

A cache of `cs` bytes with a share of `as` bytes for Ain and a memory Aout of `gs` bytes; the long-term part Am is run by a discipline `D` (LRU in 2Q,
CLOCK in its lazy-promotion variant).  Everything is a pure function on lists.
-/

namespace Verif.Spec.TwoQ
open Verif Verif.Spec

/-- Ain with the youngest object first, Aout with the last entry first, and the state of Am. -/
structure St (τ : Type) where
  ain : Contents
  aout : Contents
  am : τ

variable {τ : Type} (D : Discipline τ) (cs as gs : Nat)

/-- the cached objects -/
def contents (t : St τ) : Contents := t.ain ++ D.contents t.am

/-- a demand cache of `n` bytes with discipline `E` after one request -/
def serve {τ : Type} (E : Discipline τ) (n : Nat) (x : τ) (r : Req) : τ := (tget E n 0 ⟨x, .none⟩ r).2.pol

/-- One eviction: while Ain holds more than its share its oldest object leaves and is remembered in Aout, otherwise Am evicts. -/
def evict (t : St τ) : St τ :=
  if bytes 0 t.ain > as then
    match t.ain.getLast? with
    | some o => { t with ain := t.ain.dropLast, aout := serve fifo gs t.aout ⟨o.1, o.2, -2⟩ }
    | none => t
  else { t with am := D.evict t.am }

/-- Evict until `need` more bytes fit (`n` bounds the number of steps). -/
def room (need : Nat) : Nat → St τ → St τ
  | 0, t => t
  | n + 1, t => if bytes 0 (contents D t) + need ≤ cs then t else room need n (evict D as gs t)

/-- drop the memory of an object -/
def forget (t : St τ) (id : ObjId) : St τ := { t with aout := t.aout.filter (fun x => x.1 ≠ id) }

/-- Looking an object up: a hit in Ain changes nothing; otherwise Aout forgets the object, and a hit in Am is a hit of Am's discipline. -/
def look (t : St τ) (r : Req) : Bool × St τ :=
  if r.id ∈ t.ain.ids then (true, t)
  else if r.id ∈ (D.contents t.am).ids then (true, { forget t r.id with am := D.onHit t.am r })
  else (false, forget t r.id)

/-- One request: a missed object of at most `as` bytes goes to Am if Aout remembered it and to the young end of Ain otherwise. -/
def get (t : St τ) (r : Req) : Bool × St τ :=
  if (look D t r).1 then look D t r
  else if r.size ≤ as then
    let u := room D cs as gs r.size (contents D t).length (look D t r).2
    (false, if r.id ∈ t.aout.ids then { u with am := serve D (cs - as) u.am r } else { u with ain := (r.id, r.size % u32) :: u.ain })
  else look D t r

/-- Removal: from the first of Ain, Aout, Am that has the object. -/
def remove (t : St τ) (id : ObjId) : Bool × St τ :=
  if id ∈ t.ain.ids then (true, { t with ain := t.ain.filter (fun x => x.1 ≠ id) })
  else if id ∈ t.aout.ids then (true, forget t id)
  else if id ∈ (D.contents t.am).ids then (true, { t with am := D.remove t.am id })
  else (false, t)

/-- One client call (no `evict`, no `insert`). -/
def step (t : St τ) : Op → Bool × St τ
  | .get r => get D cs as gs t r
  | .find r update => if update then look D t r else (decide (r.id ∈ (contents D t).ids), t)
  | .remove id => remove D t id
  | .evict _ => (false, t)
  | .insert _ => (false, t)

def run (t : St τ) : List Op → List Bool × St τ
  | [] => ([], t)
  | op :: ops => ((step D cs as gs t op).1 :: (run (step D cs as gs t op).2 ops).1, (run (step D cs as gs t op).2 ops).2)

end Verif.Spec.TwoQ
