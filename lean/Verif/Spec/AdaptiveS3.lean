import Verif.Spec.Textbook
import Verif.Spec.LazyARC
/-!
# S3-FIFO with thresholds that follow the frequencies in the main queue

Two FIFO queues of cached objects with their numbers of hits, oldest object first, a memory of the objects thrown out of the small queue, two thresholds and the number of
requests.  Everything is a pure function; there are no counters of objects by frequency.
-/

namespace Verif.Spec.AdaptiveS3
open Verif Verif.Spec
open Verif.Spec.LazyARC (ent size)

/-- The sizes of the cache, the small queue and the memory. -/
structure Conf where
  cs : Nat
  fs : Nat
  gs : Nat

structure St where
  small : List Item := []
  main : List Item := []
  /-- ids and sizes, the newest first -/
  ghost : Contents := []
  /-- hits that an object of the small queue needs to enter the main queue -/
  move : Nat
  /-- hits that an object of the main queue needs to stay there -/
  keep : Nat := 1
  /-- requests so far -/
  n : Nat := 0

def contents (t : St) : Contents := ent t.small ++ ent t.main

/-- The memory is a textbook FIFO cache of `gs` bytes, if `gs` is not 0. -/
def remember (gs : Nat) (l : Contents) (x : ObjId × Nat) : Contents :=
  if gs = 0 then l else (tget fifo gs 0 ⟨l, .none⟩ ⟨x.1, x.2, 0⟩).2.pol

/-- The main queue throws out the oldest object without enough hits; those before it move to the end with at most two hits, one fewer than they had. -/
def rotate (keep : Nat) : List Item → List Item
  | [] => []
  | x :: l => if x.cnt = 0 ∨ x.cnt < keep then l else rotate keep (l ++ [⟨x.id, x.size, min x.cnt 3 - 1⟩])
termination_by l => (l.map Item.cnt).sum
decreasing_by simp; omega

/-- The small queue throws out the oldest object without enough hits; those before it enter the main queue, as new. -/
def sift (gs : Nat) (t : St) : List Item → St
  | [] => { t with small := [] }
  | x :: l =>
    if size (x :: l) = 0 then { t with small := x :: l }
    else if x.cnt < t.move then { t with small := l, ghost := remember gs t.ghost x.entry }
    else sift gs { t with main := t.main ++ [⟨x.id, x.size, 0⟩] } l

/-- The main queue gives way if it is larger than its share or nothing else is left. -/
def evict (K : Conf) (t : St) : St :=
  if size t.main > K.cs - K.fs ∨ size t.small = 0 then { t with main := rotate t.keep t.main } else sift K.gs t t.small

/-- Throw out objects until `need` more bytes fit. -/
def room (K : Conf) (need : Nat) : Nat → St → St
  | 0, t => t
  | n + 1, t => if size t.small + size t.main + need ≤ K.cs then t else room K need n (evict K t)

/-- one more hit for the object `id` -/
def hit (id : ObjId) (l : List Item) : List Item := l.map (fun x => if x.id = id then ⟨x.id, x.size, x.cnt + 1⟩ else x)

/-- What a request does before the thresholds are looked at. -/
def serve (K : Conf) (t : St) (r : Req) : Bool × St :=
  let t := { t with n := t.n + 1 }
  if r.id ∈ (ent t.small).ids then (true, { t with small := hit r.id t.small })
  else
    let u := { t with ghost := t.ghost.filter (fun x => x.1 ≠ r.id) }
    if r.id ∈ (ent t.main).ids then (true, { u with main := hit r.id t.main })
    else if K.fs < r.size then (false, u)
    else
      let v := room K r.size (2 * t.small.length + t.main.length) u
      if r.id ∈ t.ghost.ids then (false, { v with main := v.main ++ [⟨r.id, r.size, 0⟩] })
      else if r.size < K.fs then (false, { v with small := v.small ++ [⟨r.id, r.size, 0⟩] })
      else (false, v)

/-- More than nine tenths of the objects have fewer than `2 ^ (i + 1)` hits. -/
def Enough (l : List Item) (i : Nat) : Prop := l.length * 9 / 10 < l.countP (fun x => x.cnt < 2 ^ (i + 1))

instance (l : List Item) (i : Nat) : Decidable (Enough l i) := by unfold Enough; infer_instance

/-- `2 ^ i` for the least `i < m` with `Enough`, else `d`. -/
def threshold (l : List Item) (d : Nat) : Nat → Nat → Nat
  | _, 0 => d
  | i, m + 1 => if Enough l i then 2 ^ i else threshold l d (i + 1) m

/-- One request: every 1000th one sets both thresholds if the main queue is more than 90% full. -/
def get (K : Conf) (t : St) (r : Req) : Bool × St :=
  let u := (serve K t r).2
  ((serve K t r).1,
    if 10 * size u.main > 9 * (K.cs - K.fs) ∧ u.n % 1000 = 0 then { u with keep := threshold u.main u.keep 0 32, move := threshold u.main u.move 0 32 } else u)

def gets (K : Conf) : St → List Req → List Bool × St
  | t, [] => ([], t)
  | t, r :: rs => ((get K t r).1 :: (gets K (get K t r).2 rs).1, (gets K (get K t r).2 rs).2)

end Verif.Spec.AdaptiveS3
