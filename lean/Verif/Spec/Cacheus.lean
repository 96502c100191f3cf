import Verif.Spec.Experts
/-!
# A cache run by two experts that share a history

The specification of Cacheus, as pure functions.

* The cache has two halves: an object seen for the first time enters the front of `trial`; one that is hit, or that comes back while it is remembered in `past`, enters the front of `keep`.
  What no longer fits into the half of `keep` goes back to the front of `trial`; what no longer fits into the half of `trial` leaves the cache for `past`.
* Every object, cached or in `past`, has a count of its requests, `cnt`.
* When room has to be made, the first expert wants to throw out the last object of `trial` (of `keep`, if `trial` is empty), the second the object with the smallest count, among several the one
  touched most recently.  If they disagree, a random number and the weight decide, and the victim enters the history of the expert who won.
-/

namespace Verif.Spec.Cacheus
open Verif Verif.Spec
open Verif.Spec.Experts (remember)

/-- How the weight is used and learned. -/
structure Weighing (W : Type) where
  wins : W → Nat → Bool
  regretLru : W → W
  regretLfu : W → W
  noRegret : W → W
  moved : W → Bool
  learn : W → Nat → W
  flat : W → Nat → Bool
  hold : W → Nat → W
  redraw : W → Nat → Nat → W

structure St (W : Type) where
  /-- the objects of the two halves, most recent first -/
  keep : Contents := []
  trial : Contents := []
  /-- objects that have left the cache, most recent first -/
  past : Contents := []
  /-- the cached objects, the one touched most recently first -/
  order : List ObjId := []
  cnt : ObjId → Nat := fun _ => 0
  ghostLru : Contents := []
  ghostLfu : Contents := []
  w : W
  /-- hits since the weights were last adapted -/
  hits : Nat := 0
  /-- adaptations in a row without progress; undefined before the first one -/
  dull : Option Nat := none
  draws : List Nat
  now : Nat := 0
  adm : Adm

variable {W : Type}

/-- the cached objects -/
def St.contents (t : St W) : Contents := t.keep ++ t.trial

def without (l : Contents) (id : ObjId) : Contents := l.filter (fun x => x.1 ≠ id)

def note (f : ObjId → Nat) (id : ObjId) (n : Nat) : ObjId → Nat := fun i => if i = id then n else f i

/-- the oldest objects move from `a` to `b` until `a` and `need` more bytes fit into `half` -/
def demote (half need : Nat) : Nat → Contents × Contents → Contents × Contents
  | 0, p => p
  | n + 1, (a, b) =>
    match a.getLast? with
    | some x => if half < bytes 0 a + need then demote half need n (a.dropLast, x :: b) else (a, b)
    | none => (a, b)

/-- the oldest objects are dropped until less than `C` bytes remain -/
def forget (C : Nat) : Nat → Contents → Contents
  | 0, l => l
  | n + 1, l => if C ≤ bytes 0 l then forget C n l.dropLast else l

/-- an object leaves the cache -/
def leave (t : St W) (x : ObjId × Nat) : St W :=
  { t with keep := without t.keep x.1, trial := without t.trial x.1, order := t.order.filter (fun i => i ≠ x.1), past := x :: t.past }

/-- `past` has less than `C` bytes -/
def limitPast (C : Nat) (t : St W) : St W := { t with past := forget C t.past.length t.past }

/-- the oldest objects of `trial` leave until it fits into its half -/
def spill (half : Nat) : Nat → St W → St W
  | 0, t => t
  | n + 1, t =>
    match t.trial.getLast? with
    | some x => if half < bytes 0 t.trial then spill half n (leave t x) else t
    | none => t

/-- the first expert's proposal -/
def oldest (t : St W) : Option (ObjId × Nat) := if t.trial = [] then t.keep.getLast? else t.trial.getLast?

/-- the second expert's proposal -/
def rare (t : St W) : Option ObjId := t.order.find? (fun i => t.order.all (fun j => decide (t.cnt i ≤ t.cnt j)))

/-- Throw out one object. -/
def evict (K : Weighing W) (C : Nat) (t0 : St W) : St W :=
  let t := { t0 with draws := t0.draws.tail }
  match oldest t, t.contents.find? (fun x => some x.1 = rare t) with
  | some a, some b =>
    if a.1 = b.1 then limitPast C (leave t a)
    else if K.wins t.w (t0.draws.headD 0 % 100) then { limitPast C (leave t a) with ghostLru := remember (C / 2) t.ghostLru a }
    else { limitPast C (leave t b) with ghostLfu := remember (C / 2) t.ghostLfu b }
  | _, _ => t

/-- Throw out objects until `need` more bytes fit. -/
def room (K : Weighing W) (C need : Nat) : Nat → St W → St W
  | 0, t => t
  | n + 1, t => if bytes 0 t.contents + need ≤ C then t else room K C need n (evict K C t)

/-- a hit -/
def hit (C : Nat) (t : St W) (id : ObjId) : St W :=
  let t1 := { t with order := id :: t.order.filter (fun i => i ≠ id), cnt := note t.cnt id (t.cnt id + 1), hits := t.hits + 1 }
  if id ∈ t.keep.ids then { t1 with keep := toFront t.keep id }
  else
    let p := demote (C / 2) 0 (t.keep.length + 1) (t.trial.filter (fun x => x.1 = id) ++ t.keep, without t.trial id)
    { t1 with keep := p.1, trial := p.2 }

/-- a new object; one that is larger than half of the cache is not stored -/
def insert (C : Nat) (t : St W) (r : Req) : St W :=
  if C / 2 < r.size then t
  else
    let x := (r.id, r.size % u32)
    let t1 : St W :=
      if r.id ∈ t.past.ids then
        let p := demote (C / 2) r.size t.keep.length (t.keep, t.trial)
        { t with past := without t.past r.id, keep := x :: p.1, trial := p.2, order := r.id :: t.order, cnt := note t.cnt r.id (t.cnt r.id + 1) }
      else { t with trial := x :: t.trial, order := r.id :: t.order, cnt := note t.cnt r.id 1 }
    limitPast C (spill (C / 2) t1.trial.length t1)

/-- a miss lowers the weight of the expert in whose history the object is -/
def regret (K : Weighing W) (t : St W) (id : ObjId) : St W :=
  { t with w := if id ∈ t.ghostLru.ids then K.regretLru t.w else if id ∈ t.ghostLfu.ids then K.regretLfu t.w else K.noRegret t.w
           ghostLru := without t.ghostLru id, ghostLfu := without t.ghostLfu id }

/-- find with update -/
def look (K : Weighing W) (C : Nat) (t : St W) (r : Req) : Bool × St W :=
  if r.id ∈ t.contents.ids then (true, hit C t r.id) else (false, regret K t r.id)

/-- every `C` requests the learning rate is adapted; the hit rate is rounded down to an integer -/
def adapt (K : Weighing W) (C : Nat) (t : St W) : St W :=
  if t.now % C = 0 then
    if K.moved t.w then { t with w := K.learn t.w (t.hits / C), dull := some 0, hits := 0 }
    else if K.flat t.w (t.hits / C) then { t with w := K.hold t.w (t.hits / C), dull := some (t.dull.getD 0 + 1), hits := 0 }
    else if t.dull.getD 0 ≥ 10 then { t with w := K.redraw t.w (t.hits / C) (t.draws.headD 0 % 1000), draws := t.draws.tail, dull := some 0, hits := 0 }
    else { t with w := K.hold t.w (t.hits / C), hits := 0 }
  else t

def get (K : Weighing W) (C : Nat) (t : St W) (r : Req) : Bool × St W :=
  let p := look K C { t with now := t.now + 1 } r
  if p.1 then (true, adapt K C p.2)
  else
    let t2 : St W := { p.2 with adm := (p.2.adm.admit r).2 }
    if (p.2.adm.admit r).1 = true ∧ r.size ≤ C then (false, adapt K C (insert C (room K C r.size t2.contents.length t2) r))
    else (false, adapt K C t2)

def step (K : Weighing W) (C : Nat) (t : St W) : Op → Bool × St W
  | .get r => get K C t r
  | .find r u => if u then look K C t r else (decide (r.id ∈ t.contents.ids), t)
  | .remove id =>
    match t.contents.find? (fun x => x.1 = id) with
    | some x => (true, limitPast C (leave t x))
    | none => (false, t)
  | .evict _ => if t.contents = [] then (false, t) else (true, evict K C t)
  | .insert r => if r.id ∉ t.contents.ids ∧ bytes 0 t.contents + r.size ≤ C then (true, insert C t r) else (false, t)

def run (K : Weighing W) (C : Nat) (t : St W) : List Op → List Bool × St W
  | [] => ([], t)
  | op :: ops => ((step K C t op).1 :: (run K C (step K C t op).2 ops).1, (run K C (step K C t op).2 ops).2)

end Verif.Spec.Cacheus
