import Verif.Spec.Partial
/-!
# Queues that keep what is needed soon

The reference machines for FIFO_Belady, LRU_Belady and Sieve_Belady: caches that know when each object will be requested next.  Objects are
listed from oldest to newest.  An object is due if its next request is at most a threshold of requests away; the threshold is a function
`T` of the number of misses so far, the number of requests so far and the cache size.
-/

namespace Verif.Spec.Dated
open Verif Verif.Spec

/-- A cached object, and when it will be requested next. -/
structure Entry where
  id : ObjId
  size : Nat
  next : Int
deriving DecidableEq, Repr

def contents (l : List Entry) : Contents := l.map (fun x => (x.id, x.size))

/-- the entry of a newly cached object -/
def Entry.ofReq (r : Req) : Entry := ⟨r.id, r.size % u32, r.next⟩

/-- a hit tells when the object is requested next -/
def touched (r : Req) (l : List Entry) : List Entry := l.map (fun x => if x.id = r.id then { x with next := r.next } else x)

/-- the entry of `id` moved to the newest end -/
def toNewest (id : ObjId) (l : List Entry) : List Entry := l.filter (fun x => x.id ≠ id) ++ l.filter (fun x => x.id = id)

/-- A queue, with the number of requests (`get` calls) and of misses so far, and the admission policy. -/
structure Queue where
  objs : List Entry
  reqs : Nat
  misses : Nat
  adm : Adm
deriving DecidableEq

/-- is the object due? -/
def isDue (T : Nat → Nat → Nat → Int) (C reqs misses : Nat) (x : Entry) : Bool := decide (x.next - (reqs : Int) ≤ T misses reqs C)

def holds (l : List Entry) (id : ObjId) : Bool := decide (id ∈ l.map Entry.id)

/-- One eviction: if the oldest object is due, it is put at the newest end, otherwise it is thrown out. -/
def pass (due : Entry → Bool) : List Entry → List Entry
  | [] => []
  | x :: l => if due x then l ++ [x] else l

/-- Evictions until there is room, at most `n`; `none` if there is still no room. -/
def sweep (due : Entry → Bool) (room : List Entry → Bool) : Nat → List Entry → Option (List Entry)
  | 0, l => if room l then some l else none
  | n + 1, l => if room l then some l else sweep due room n (pass due l)

/-- One request.  If no room has been found when every object has been looked at once, the call does not return. -/
def qget (T : Nat → Nat → Nat → Int) (promote : Bool) (C md : Nat) (t : Queue) (r : Req) : Option (Bool × Queue) :=
  if holds t.objs r.id then
    some (true, { t with reqs := t.reqs + 1, objs := if promote then toNewest r.id (touched r t.objs) else touched r t.objs })
  else if (t.adm.admit r).1 = true ∧ r.size + md ≤ C then
    match sweep (isDue T C (t.reqs + 1) t.misses) (fun l => bytes md (contents l) + r.size + md ≤ C) t.objs.length t.objs with
    | none => none
    | some l => some (false, ⟨l ++ [Entry.ofReq r], t.reqs + 1, t.misses + 1, (t.adm.admit r).2⟩)
  else some (false, { t with reqs := t.reqs + 1, misses := t.misses + 1, adm := (t.adm.admit r).2 })

/-- FIFO (`promote = false`) or LRU (`promote = true`) with due objects kept. -/
def queue (T : Nat → Nat → Nat → Int) (promote : Bool) (C md : Nat) : Machine Queue where
  step := fun t op =>
    match op with
    | .get r => qget T promote C md t r
    | .find r update => some (holds t.objs r.id,
        if update = true ∧ holds t.objs r.id = true then
          { t with objs := if promote then toNewest r.id (touched r t.objs) else touched r t.objs } else t)
    | .remove id => some (holds t.objs id, { t with objs := t.objs.filter (fun x => x.id ≠ id) })
    | .evict _ => if t.objs = [] then some (false, t) else some (true, { t with objs := pass (isDue T C t.reqs t.misses) t.objs })
    | .insert r =>
      if holds t.objs r.id = false ∧ bytes md (contents t.objs) + r.size + md ≤ C then some (true, { t with objs := t.objs ++ [Entry.ofReq r] })
      else some (false, t)

/-! ## With a hand -/

/-- A queue with a hand, which is on an object or nowhere. -/
structure Sieve extends Queue where
  hand : Option ObjId
deriving DecidableEq

/-- the objects from the one with `id` to the newest -/
def from_ (id : ObjId) (l : List Entry) : List Entry := l.dropWhile (fun x => x.id ≠ id)

/-- the newer neighbour of `id` -/
def newer (id : ObjId) (l : List Entry) : Option ObjId := ((from_ id l).tail.head?).map Entry.id

/-- The first object from the hand on (from the oldest, if the hand is nowhere) that is not due; else the first one at all that is not due;
else the one under the hand. -/
def victim (due : Entry → Bool) (l : List Entry) (hand : Option ObjId) : Option ObjId :=
  let ahead := match hand with
    | none => l
    | some h => from_ h l
  match ahead.find? (fun x => !due x) with
  | some x => some x.id
  | none =>
    match l.find? (fun x => !due x) with
    | some x => some x.id
    | none => hand

/-- Throw out the victim; the hand goes to its newer neighbour. -/
def sieveEvict (due : Entry → Bool) (t : Sieve) : Option Sieve :=
  match victim due t.objs t.hand with
  | none => none
  | some v => some { t with objs := t.objs.filter (fun x => x.id ≠ v), hand := newer v t.objs }

/-- Evictions until there is room. -/
def sieveSweep (due : Entry → Bool) (room : List Entry → Bool) : Nat → Sieve → Option Sieve
  | 0, t => if room t.objs then some t else none
  | n + 1, t => if room t.objs then some t else
    match sieveEvict due t with
    | none => none
    | some t' => sieveSweep due room n t'

/-- One request; an object that is not due is not cached, even if room has been made for it. -/
def sget (T : Nat → Nat → Nat → Int) (C md : Nat) (t : Sieve) (r : Req) : Option (Bool × Sieve) :=
  if holds t.objs r.id then some (true, { t with reqs := t.reqs + 1, objs := touched r t.objs })
  else if (t.adm.admit r).1 = true ∧ r.size + md ≤ C then
    match sieveSweep (isDue T C (t.reqs + 1) t.misses) (fun l => bytes md (contents l) + r.size + md ≤ C) t.objs.length t with
    | none => none
    | some t' =>
      let objs := if isDue T C (t.reqs + 1) t.misses (Entry.ofReq r) then t'.objs ++ [Entry.ofReq r] else t'.objs
      some (false, { objs := objs, reqs := t.reqs + 1, misses := t.misses + 1, adm := (t.adm.admit r).2, hand := t'.hand })
  else some (false, { t with reqs := t.reqs + 1, misses := t.misses + 1, adm := (t.adm.admit r).2 })

/-- SIEVE with "is due" in the place of "was hit". -/
def sieve (T : Nat → Nat → Nat → Int) (C md : Nat) : Machine Sieve where
  step := fun t op =>
    match op with
    | .get r => sget T C md t r
    | .find r update => some (holds t.objs r.id, if update then { t with objs := touched r t.objs } else t)
    | .remove id => some (holds t.objs id, { t with objs := t.objs.filter (fun x => x.id ≠ id), hand := if t.hand = some id then newer id t.objs else t.hand })
    | .evict _ => if t.objs = [] then some (false, t) else (sieveEvict (isDue T C t.reqs t.misses) t).map (fun t' => (true, t'))
    | .insert r =>
      if holds t.objs r.id = false ∧ bytes md (contents t.objs) + r.size + md ≤ C then
        some (true, { t with objs := if isDue T C t.reqs t.misses (Entry.ofReq r) then t.objs ++ [Entry.ofReq r] else t.objs })
      else some (false, t)

end Verif.Spec.Dated
