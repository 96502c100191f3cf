import Verif.Spec.Textbook
/-!
# A cache run by two experts, LRU and LFU, with regret

The specification of LeCaR with separate expert caches, as pure functions.  Two textbook caches hold the same objects: one in the order of LRU, one in the order of
LFU.  When they want to throw out different objects, a random number and the weight decide.  The victim enters the history of the expert who won, a textbook
LRU cache of half the size, with the time.  A miss on an object of a history takes it out of there and lowers that expert's weight.
-/

namespace Verif.Spec.Experts
open Verif Verif.Spec

/-- How the weight is used: `wins w x` says whether the LRU expert prevails when `x` was drawn, `regretLru w t` and `regretLfu w t` are the weights after a miss on an object
the expert threw out `t` requests ago. -/
structure Weighing (W : Type) where
  wins : W → Nat → Bool
  regretLru : W → Int → W
  regretLfu : W → Int → W

structure St (W : Type) where
  /-- the cached objects, most recently used first -/
  recent : Contents
  /-- the same objects, least frequently used first -/
  frequent : List Item
  pastLru : Contents
  pastLfu : Contents
  /-- when the objects of the histories were thrown out -/
  timeLru : ObjId → Int
  timeLfu : ObjId → Int
  w : W
  draws : List Nat
  now : Nat
  adm : Adm

variable {W : Type}

/-- Times are kept in 40 bits, two's complement. -/
def clock40 (n : Nat) : Int := Int.bmod n (2 ^ 40)

def note (f : ObjId → Int) (id : ObjId) (t : Int) : ObjId → Int := fun i => if i = id then t else f i

/-- A history is a textbook LRU cache of `half` bytes that the victim is requested from. -/
def remember (half : Nat) (l : Contents) (x : ObjId × Nat) : Contents := (tget lru half 0 ⟨l, .none⟩ ⟨x.1, x.2, 0⟩).2.pol

/-- Throw out one object. -/
def evict (K : Weighing W) (half : Nat) (t : St W) : St W :=
  match t.recent.getLast?, t.frequent.head? with
  | some a, some b =>
    if a.1 = b.id then { t with recent := t.recent.dropLast, frequent := t.frequent.tail }
    else if K.wins t.w (t.draws.headD 0) then
      { t with recent := t.recent.dropLast, frequent := t.frequent.filter (fun x => x.id ≠ a.1), draws := t.draws.tail,
               pastLru := remember half t.pastLru a, timeLru := note t.timeLru a.1 (clock40 t.now) }
    else
      { t with recent := t.recent.filter (fun x => x.1 ≠ b.id), frequent := t.frequent.tail, draws := t.draws.tail,
               pastLfu := remember half t.pastLfu b.entry, timeLfu := note t.timeLfu b.id (clock40 t.now) }
  | _, _ => t

/-- Throw out objects until `need` more bytes fit. -/
def room (K : Weighing W) (C need : Nat) : Nat → St W → St W
  | 0, t => t
  | n + 1, t => if bytes 0 t.recent + need ≤ C then t else room K C need n (evict K (C / 2) t)

/-- A miss on an object of a history. -/
def regret (K : Weighing W) (t : St W) (id : ObjId) : St W :=
  if id ∈ t.pastLru.ids then { t with w := K.regretLru t.w (t.now - t.timeLru id), pastLru := t.pastLru.filter (fun x => x.1 ≠ id) }
  else if id ∈ t.pastLfu.ids then { t with w := K.regretLfu t.w (t.now - t.timeLfu id), pastLfu := t.pastLfu.filter (fun x => x.1 ≠ id) }
  else t

def hit (t : St W) (r : Req) : St W := { t with recent := lru.onHit t.recent r, frequent := lfu.onHit t.frequent r }

def insert (t : St W) (r : Req) : St W := { t with recent := lru.insert t.recent r, frequent := lfu.insert t.frequent r }

/-- find with update -/
def look (K : Weighing W) (t : St W) (r : Req) : Bool × St W :=
  if r.id ∈ t.recent.ids then (true, hit t r) else (false, regret K t r.id)

def get (K : Weighing W) (C : Nat) (t : St W) (r : Req) : Bool × St W :=
  if r.id ∈ t.recent.ids then (true, hit { t with now := t.now + 1 } r)
  else
    if (t.adm.admit r).1 = true ∧ r.size ≤ C then
      (false, insert (room K C r.size t.recent.length { regret K { t with now := t.now + 1 } r.id with adm := (t.adm.admit r).2 }) r)
    else (false, { regret K { t with now := t.now + 1 } r.id with adm := (t.adm.admit r).2 })

def step (K : Weighing W) (C : Nat) (t : St W) : Op → Bool × St W
  | .get r => get K C t r
  | .find r u => if u then look K t r else (decide (r.id ∈ t.recent.ids), t)
  | .remove id =>
    (decide (id ∈ t.recent.ids), { t with recent := t.recent.filter (fun x => x.1 ≠ id), frequent := t.frequent.filter (fun x => x.id ≠ id) })
  | .evict _ => if t.recent = [] then (false, t) else (true, evict K (C / 2) t)
  | .insert r => if r.id ∉ t.recent.ids ∧ bytes 0 t.recent + r.size ≤ C then (true, insert t r) else (false, t)

def run (K : Weighing W) (C : Nat) (t : St W) : List Op → List Bool × St W
  | [] => ([], t)
  | op :: ops => ((step K C t op).1 :: (run K C (step K C t op).2 ops).1, (run K C (step K C t op).2 ops).2)

end Verif.Spec.Experts
