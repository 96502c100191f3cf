import Verif.Spec.Textbook
import Verif.Spec.Experts
/-!
# Adaptive replacement with lazy promotion

T1 holds the objects requested once, T2 those requested again; both are CLOCK queues, oldest object first.  B1 and B2 remember what left T1 and T2; both are textbook LRU
caches of the size of the cache, most recent object first.  `p` is the target size of T1.  Everything is a pure function; there are no pointers, time stamps or flags.
-/

namespace Verif.Spec.LazyARC
open Verif Verif.Spec

/-- How the target is used: `gt n p` and `eq n p` compare a number of bytes with it, `up` and `down` move it. -/
structure Aim (P : Type) where
  gt : Nat → P → Bool
  eq : Nat → P → Bool
  up : P → Nat → Nat → P
  down : P → Nat → Nat → P

structure St (P : Type) where
  t1 : List Item
  t2 : List Item
  b1 : Contents
  b2 : Contents
  p : P

variable {P : Type}

/-- ids and sizes -/
def ent (l : List Item) : Contents := l.map Item.entry

def size (l : List Item) : Nat := bytes 0 (ent l)

/-- what is cached -/
def contents (t : St P) : Contents := ent t.t1 ++ ent t.t2

/-- The object that CLOCK throws out (see `clockEvict`); with one-bit counters it is the first one without a mark, or the oldest one. -/
def clockVictim : List Item → Option Item
  | [] => none
  | x :: l => if x.cnt = 0 then some x else clockVictim (l ++ [{ x with cnt := x.cnt - 1 }])
termination_by l => (l.map Item.cnt).sum
decreasing_by simp; omega

/-- An object leaves T1 for B1. -/
def demote1 (cs : Nat) (t : St P) : St P :=
  match clockVictim t.t1 with
  | none => t
  | some v => { t with t1 := clockEvict t.t1, b1 := Experts.remember cs t.b1 v.entry }

/-- An object leaves T2 for B2. -/
def demote2 (cs : Nat) (t : St P) : St P :=
  match clockVictim t.t2 with
  | none => t
  | some v => { t with t2 := clockEvict t.t2, b2 := Experts.remember cs t.b2 v.entry }

/-- REPLACE: T1 gives up an object if it is larger than the target (or, after a hit in B2, as large), or if T2 is empty. -/
def replace (A : Aim P) (cs : Nat) (fromB2 : Bool) (t : St P) : St P :=
  if (0 < size t.t1 ∧ (A.gt (size t.t1) t.p = true ∨ (A.eq (size t.t1) t.p = true ∧ fromB2 = true))) ∨ size t.t2 = 0 then demote1 cs t else demote2 cs t

/-- Forget the oldest ghosts of B2 until the four lists hold less than `2 * cs` bytes. -/
def shrink (cs : Nat) (t : St P) : St P :=
  { t with b2 := makeRoom lru (2 * cs) 0 (size t.t1 + bytes 0 t.b1 + size t.t2 + 1) t.b2.length t.b2 }

/-- One eviction when the object requested is on none of the lists. -/
def missEvict (A : Aim P) (cs need : Nat) (fromB2 : Bool) (t : St P) : St P :=
  if size t.t1 + bytes 0 t.b1 + need > cs then
    if 0 < bytes 0 t.b1 then replace A cs fromB2 { t with b1 := t.b1.dropLast }
    else { t with t1 := clockEvict t.t1 }
  else replace A cs fromB2 (shrink cs t)

/-- Evict by the rule `E` until `need` more bytes fit. -/
def room (E : St P → St P) (cs need : Nat) : Nat → St P → St P
  | 0, t => t
  | n + 1, t => if size t.t1 + size t.t2 + need ≤ cs then t else room E cs need n (E t)

/-- One request. -/
def get (A : Aim P) (cs : Nat) (t : St P) (r : Req) : Bool × St P :=
  if r.id ∈ (ent t.t1).ids then
    (true, { t with t1 := t.t1.filter (fun x => x.id ≠ r.id), t2 := t.t2 ++ [⟨r.id, r.size, 0⟩] })
  else if r.id ∈ (ent t.t2).ids then
    (true, { t with t2 := (clock 1).onHit t.t2 r })
  else if r.id ∈ t.b1.ids then
    let u := room (replace A cs false) cs r.size (t.t1.length + t.t2.length)
      { t with p := A.up t.p (bytes 0 t.b2) (bytes 0 t.b1), b1 := t.b1.filter (fun x => x.1 ≠ r.id) }
    (false, { u with t2 := u.t2 ++ [⟨r.id, r.size, 0⟩] })
  else if r.id ∈ t.b2.ids then
    let u := room (replace A cs true) cs r.size (t.t1.length + t.t2.length)
      { t with p := A.down t.p (bytes 0 t.b1) (bytes 0 t.b2), b2 := t.b2.filter (fun x => x.1 ≠ r.id) }
    (false, { u with t2 := u.t2 ++ [⟨r.id, r.size, 0⟩] })
  else
    let u := room (missEvict A cs r.size false) cs r.size (t.t1.length + t.t2.length) t
    (false, { u with t1 := u.t1 ++ [⟨r.id, r.size, 0⟩] })

/-- One call: a request, a look without effect, or a removal (the ghosts stay). -/
def step (A : Aim P) (cs : Nat) (t : St P) : Op → Bool × St P
  | .get r => get A cs t r
  | .find r _ => (decide (r.id ∈ (contents t).ids), t)
  | .remove id => (decide (id ∈ (contents t).ids), { t with t1 := t.t1.filter (fun x => x.id ≠ id), t2 := t.t2.filter (fun x => x.id ≠ id) })
  | .evict _ => (false, t)
  | .insert _ => (false, t)

def run (A : Aim P) (cs : Nat) : St P → List Op → List Bool × St P
  | t, [] => ([], t)
  | t, op :: ops => ((step A cs t op).1 :: (run A cs (step A cs t op).2 ops).1, (run A cs (step A cs t op).2 ops).2)

/-- The requests considered: every object has one size, `sz`, fits into the cache, and is smaller than 4 GiB. -/
def Fits (cs : Nat) (sz : ObjId → Nat) (r : Req) : Prop := r.size = sz r.id ∧ r.size ≤ cs ∧ r.size < u32

end Verif.Spec.LazyARC
