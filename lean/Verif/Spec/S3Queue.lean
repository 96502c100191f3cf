import Verif.Spec.Textbook
import Verif.Spec.LazyARC
/-!
# S3-FIFO

Two FIFO queues of cached objects with their numbers of hits, oldest object first, and a memory of the objects thrown out of the small queue.  Everything is a pure function
on lists: there are no hash tables, pointers or byte counters.
-/

namespace Verif.Spec.S3
open Verif Verif.Spec
open Verif.Spec.LazyARC (ent size)

/-- The sizes of the cache, the small queue and the memory, and the hits that an object of the small queue needs to enter the main queue. -/
structure Conf where
  cs : Nat
  fs : Nat
  gs : Nat
  move : Nat

structure St where
  small : List Item := []
  main : List Item := []
  /-- ids and sizes, the newest first -/
  ghost : Contents := []
  /-- the object of the last lookup was in the memory, and nothing has been stored in the main queue since -/
  known : Bool := false
deriving DecidableEq, Repr

def contents (t : St) : Contents := ent t.small ++ ent t.main

/-- The memory is a textbook FIFO cache of `gs` bytes, if `gs` is not 0. -/
def remember (gs : Nat) (l : Contents) (x : ObjId × Nat) : Contents :=
  if gs = 0 then l else (tget fifo gs 0 ⟨l, .none⟩ ⟨x.1, x.2, 0⟩).2.pol

/-- The main queue throws out the oldest object without a hit; those before it move to the end with at most two hits, one fewer than they had. -/
def rotate : List Item → List Item
  | [] => []
  | x :: l => if x.cnt = 0 then l else rotate (l ++ [⟨x.id, x.size, min x.cnt 3 - 1⟩])
termination_by l => (l.map Item.cnt).sum
decreasing_by simp; omega

/-- The small queue throws out the oldest object without enough hits; those before it enter the main queue, as new. -/
def sift (K : Conf) (t : St) : List Item → St
  | [] => { t with small := [] }
  | x :: l =>
    if size (x :: l) = 0 then { t with small := x :: l }
    else if x.cnt < K.move then { t with small := l, ghost := remember K.gs t.ghost x.entry }
    else sift K { t with main := t.main ++ [⟨x.id, x.size, 0⟩] } l

/-- The main queue gives way if it is larger than its share or nothing else is left. -/
def evict (K : Conf) (t : St) : St :=
  if size t.main > K.cs - K.fs ∨ size t.small = 0 then { t with main := if size t.main = 0 then t.main else rotate t.main } else sift K t t.small

/-- Throw out objects until `need` more bytes fit. -/
def room (K : Conf) (need : Nat) : Nat → St → St
  | 0, t => t
  | n + 1, t => if size t.small + size t.main + need ≤ K.cs then t else room K need n (evict K t)

/-- one more hit for the object `id` -/
def hit (id : ObjId) (l : List Item) : List Item := l.map (fun x => if x.id = id then ⟨x.id, x.size, x.cnt + 1⟩ else x)

/-- A lookup counts the hit; unless the object is in the small queue, it also takes the object out of the memory. -/
def look (t : St) (id : ObjId) : Bool × St :=
  if id ∈ (ent t.small).ids then (true, { t with small := hit id t.small, known := false })
  else
    let u := { t with ghost := t.ghost.filter (fun x => x.1 ≠ id), known := decide (id ∈ t.ghost.ids) }
    if id ∈ (ent t.main).ids then (true, { u with main := hit id t.main }) else (false, u)

/-- An object just taken out of the memory goes to the main queue, others go to the small queue unless they fill it.  Sizes are stored with 32 bits. -/
def store (K : Conf) (t : St) (r : Req) : St :=
  if t.known then { t with main := t.main ++ [⟨r.id, r.size % u32, 0⟩], known := false }
  else if r.size < K.fs then { t with small := t.small ++ [⟨r.id, r.size % u32, 0⟩] }
  else t

/-- One request.  Objects larger than the small queue are not cached. -/
def get (K : Conf) (t : St) (r : Req) : Bool × St :=
  let u := (look t r.id).2
  if (look t r.id).1 then (true, u)
  else if K.fs < r.size then (false, u)
  else (false, store K (room K r.size (2 * u.small.length + u.main.length) u) r)

/-- Removal from the small queue, or else the memory, or else the main queue. -/
def remove (t : St) (id : ObjId) : Bool × St :=
  if id ∈ (ent t.small).ids then (true, { t with small := t.small.filter (fun x => x.id ≠ id) })
  else if id ∈ t.ghost.ids then (true, { t with ghost := t.ghost.filter (fun x => x.1 ≠ id) })
  else (decide (id ∈ (ent t.main).ids), { t with main := t.main.filter (fun x => x.id ≠ id) })

/-- One call of the client. -/
def step (K : Conf) (t : St) : Op → Bool × St
  | .get r => get K t r
  | .find r true => look t r.id
  | .find r false => (decide (r.id ∈ (contents t).ids), t)
  | .remove id => remove t id
  | .evict _ => if contents t = [] then (false, t) else (true, evict K t)
  | .insert r => if r.id ∉ (contents t).ids ∧ bytes 0 (contents t) + r.size ≤ K.cs then (true, store K t r) else (false, t)

def run (K : Conf) : St → List Op → List Bool × St
  | t, [] => ([], t)
  | t, op :: ops => ((step K t op).1 :: (run K (step K t op).2 ops).1, (run K (step K t op).2 ops).2)

end Verif.Spec.S3
