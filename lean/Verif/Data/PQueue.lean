import Verif.Base.Res
import Mathlib.Order.Defs.LinearOrder
/-!
# The binary heap, libCacheSim/dataStructure/pqueue.c

Nodes are addresses of `pq_node_t`s owned by the caller; `pri` and `pos` are their fields.  Priorities range over any linear order
(`double` without NaN in C); `cmp_pri(a, b)` is `a < b` (pqueue.h:196-198), so the queue gives the largest priority first.
`d` is the array with bounds `avail`; a read of a slot never written is a fault.  Failure of `malloc`/`realloc` is not modelled.
-/

namespace Verif.PQueue

abbrev Node := Nat

/-- `pqueue_t`, pqueue.h:66-76, and the fields `pri`, `pos` of the nodes, pqueue.h:78-82 -/
structure Q (P : Type) where
  d : Nat → Option Node
  size : Nat
  avail : Nat
  step : Nat
  pri : Node → P
  pos : Node → Nat

variable {P : Type} [LinearOrder P]

/-- `left(i)`, `parent(i)`, pqueue.c:42-44 -/
def left (i : Nat) : Nat := i <<< 1
def parent (i : Nat) : Nat := i >>> 1

/-- `q->d[i]` -/
def rd (q : Q P) (i : Nat) : Res Node :=
  if i < q.avail then
    match q.d i with
    | some x => .ok x
    | none => .error .uninit
  else .error .outOfBounds

/-- `q->d[i] = x` -/
def wr (q : Q P) (i : Nat) (x : Node) : Res (Q P) :=
  if i < q.avail then .ok { q with d := fun j => if j = i then some x else q.d j } else .error .outOfBounds

/-- `q->setpos(x, i)` -/
def setPos (q : Q P) (x : Node) (i : Nat) : Q P := { q with pos := fun y => if y = x then i else q.pos y }
/-- `q->setpri(x, p)` -/
def setPri (q : Q P) (x : Node) (p : P) : Q P := { q with pri := fun y => if y = x then p else q.pri y }

/-- `pqueue_init`, 46-76 -/
def init (n : Nat) (pri : Node → P) (pos : Node → Nat) : Q P := { d := fun _ => none, size := 1, avail := n + 1, step := n + 1, pri, pos }

/-- the `for` loop of `bubble_up`, 105-112 -/
def bubbleLoop (mp : P) : Nat → Q P → Nat → Res (Q P × Nat)
  | 0, _, _ => .error .diverge
  | k + 1, q, i =>
    if i > 1 then
      rd q (parent i) >>= fun x =>
      if q.pri x < mp then wr q i x >>= fun q => bubbleLoop mp k (setPos q x i) (parent i) else .ok (q, i)
    else .ok (q, i)

/-- `bubble_up`, 98-116 -/
def bubbleUp (q : Q P) (i : Nat) : Res (Q P) :=
  rd q i >>= fun v =>
  bubbleLoop (q.pri v) (i + 1) q i >>= fun r =>
  wr r.1 r.2 v >>= fun q => .ok (setPos q v r.2)

/-- `maxchild`, 119-132 -/
def maxchild (q : Q P) (i : Nat) : Res Nat :=
  if left i ≥ q.size then .ok 0
  else if left i + 1 < q.size then
    rd q (left i) >>= fun x => rd q (left i + 1) >>= fun y => if q.pri x < q.pri y then .ok (left i + 1) else .ok (left i)
  else .ok (left i)

/-- the `while` loop of `percolate_down`, 142-148 -/
def percLoop (mp : P) : Nat → Q P → Nat → Res (Q P × Nat)
  | 0, _, _ => .error .diverge
  | k + 1, q, i =>
    maxchild q i >>= fun c =>
    if c = 0 then .ok (q, i)
    else rd q c >>= fun y =>
      if mp < q.pri y then wr q i y >>= fun q => percLoop mp k (setPos q y i) c else .ok (q, i)

/-- `percolate_down`, 135-152 -/
def percolateDown (q : Q P) (i : Nat) : Res (Q P) :=
  rd q i >>= fun v =>
  percLoop (q.pri v) (q.size + 1) q i >>= fun r =>
  wr r.1 r.2 v >>= fun q => .ok (setPos q v r.2)

/-- `pqueue_insert`, 155-179 -/
def insert (q : Q P) (x : Node) : Res (Q P) :=
  let q := if q.size ≥ q.avail then { q with avail := q.size + q.step } else q
  let i := q.size
  let q := { q with size := q.size + 1 }
  wr q i x >>= fun q => bubbleUp q i

/-- `pqueue_change_priority`, 182-196 -/
def changePriority (q : Q P) (p : P) (x : Node) : Res (Q P) :=
  let old := q.pri x
  let q := setPri q x p
  if old < p then bubbleUp q (q.pos x) else percolateDown q (q.pos x)

/-- `pqueue_remove`, 199-210 -/
def remove (q : Q P) (x : Node) : Res (Q P) :=
  let posn := q.pos x
  let q := { q with size := q.size - 1 }
  rd q q.size >>= fun l =>
  wr q posn l >>= fun q =>
  rd q posn >>= fun y =>
  if q.pri x < q.pri y then bubbleUp q posn else percolateDown q posn

/-- `pqueue_pop`, 213-226 -/
def pop (q : Q P) : Res (Option Node × Q P) :=
  if q.size = 1 then .ok (none, q)
  else
    rd q 1 >>= fun hd =>
    let q := { q with size := q.size - 1 }
    rd q q.size >>= fun l =>
    wr q 1 l >>= fun q =>
    percolateDown q 1 >>= fun q => .ok (some hd, q)

/-- `pqueue_peek`, 229-237 -/
def peek (q : Q P) : Res (Option Node) :=
  if q.size = 1 then .ok none else rd q 1 >>= fun x => .ok (some x)

end Verif.PQueue
