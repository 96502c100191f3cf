import Verif.Spec.Textbook
/-!
# Segmented FIFO with lazy promotion

The cache of `fifo/LP_SFIFO.c` as one would describe it: segments 0 to `n - 1`, each a FIFO queue with a limit.  Hits are counted and move nothing.  When the
oldest object of segment 0 had hits it moves up to the segment of that number (at most the top one), else it is evicted.  A segment above its limit passes its
oldest objects down.
-/

namespace Verif.Spec.LazySegments
open Verif Verif.Spec

/-- the number of segments and their limits -/
structure Sizes where
  cache : Nat
  n : Nat
  lim : Nat → Nat

/-- the segments, newest object first -/
abbrev Segs := Nat → List Item

def size (l : List Item) : Nat := bytes 0 (l.map Item.entry)

/-- all cached objects -/
def all (z : Sizes) (a : Segs) : List Item := (List.range z.n).flatMap a

def ids (l : List Item) : List ObjId := l.map Item.id

/-- segment `k` replaced -/
def put (a : Segs) (k : Nat) (l : List Item) : Segs := fun j => if j = k then l else a j

/-- A hit in segment 0 is counted once, if the counter was 0; a hit in the other segments is counted. -/
def hit (a : Segs) (r : Req) : Segs :=
  fun k => (a k).map (fun x => if x.id = r.id then { x with cnt := if k = 0 then (if x.cnt = 0 then 1 else x.cnt) else x.cnt + 1 } else x)

/-- the longest run of newest objects that fits in `room` bytes -/
def keep : Nat → List Item → List Item
  | _, [] => []
  | room, x :: l => if x.size ≤ room then x :: keep (room - x.size) l else []

/-- the objects that do not fit -/
def spill (room : Nat) (l : List Item) : List Item := l.drop (keep room l).length

/-- A segment above its limit passes its oldest objects to the recent end of the next lower one, which then does the same. -/
def settle (z : Sizes) : Nat → Segs → Segs
  | 0, a => a
  | k + 1, a =>
    if size (a (k + 1)) > z.lim (k + 1) then
      settle z k (put (put a (k + 1) (keep (z.lim (k + 1)) (a (k + 1)))) k (spill (z.lim (k + 1)) (a (k + 1)) ++ a k))
    else a

/-- `x` becomes the newest object of segment `k` -/
def push (a : Segs) (k : Nat) (x : Item) : Segs := put a k (x :: a k)

/-- One eviction: the oldest object of segment 0 goes, or moves up if it had hits. -/
def evict (z : Sizes) (a : Segs) : Segs :=
  match (a 0).getLast? with
  | none => a
  | some x =>
    if x.cnt = 0 then put a 0 (a 0).dropLast
    else settle z (min x.cnt (z.n - 1)) (push (put a 0 (a 0).dropLast) (min x.cnt (z.n - 1)) { x with cnt := 0 })

/-- Evict until `need` bytes are free; `m` bounds the number of evictions. -/
def makeRoom (z : Sizes) (need : Nat) : Nat → Segs → Segs
  | 0, a => a
  | m + 1, a => if size (all z a) + need ≤ z.cache then a else makeRoom z need m (evict z a)

/-- the lowest segment with room for `need` bytes, segment 0 if there is none -/
def target (z : Sizes) (a : Segs) (need : Nat) : Nat := ((List.range z.n).find? (fun k => decide (size (a k) + need ≤ z.lim k))).getD 0

/-- A new object. -/
def insert (z : Sizes) (a : Segs) (r : Req) : Segs := push a (target z a r.size) ⟨r.id, r.size % u32, 0⟩

/-- One request, with the admission policy.  Every eviction takes an object away or sets a positive counter to 0, hence the bound. -/
def get (z : Sizes) (t : Segs × Adm) (r : Req) : Bool × (Segs × Adm) :=
  if r.id ∈ ids (all z t.1) then (true, (hit t.1 r, t.2))
  else if (t.2.admit r).1 = true ∧ r.size ≤ z.lim 0 then
    (false, (insert z (makeRoom z r.size (2 * (all z t.1).length) t.1) r, (t.2.admit r).2))
  else (false, (t.1, (t.2.admit r).2))

def gets (z : Sizes) (t : Segs × Adm) : List Req → List Bool × (Segs × Adm)
  | [] => ([], t)
  | r :: rs => ((get z t r).1 :: (gets z (get z t r).2 rs).1, (gets z (get z t r).2 rs).2)

/-- an object removed -/
def remove (a : Segs) (id : ObjId) : Segs := fun k => (a k).filter (fun x => x.id ≠ id)

end Verif.Spec.LazySegments
