import Verif.Data.DList
/-!
# What it means that the pointers form the list `q`
-/

namespace Verif.Spec
open Verif.DList

/-- In heap `h`, every object of `q` points back to its predecessor in `q` and forward to its successor. -/
def Linked (h : Heap) (q : List Addr) : Prop :=
  ∀ a x b, q = a ++ x :: b → h x = some ⟨a.getLast?, b.head?⟩

/-- `q` is the list with end pointers `hd`, `tl`. -/
structure IsList (s : St) (q : List Addr) : Prop where
  nodup : q.Nodup
  head : s.hd = q.head?
  tail : s.tl = q.getLast?
  linked : Linked s.h q

/-- The objects found by following `next` from `p`, at most `n` of them. -/
def forward (h : Heap) : Nat → Ptr → List Addr
  | 0, _ => []
  | _ + 1, none => []
  | n + 1, some x => x :: forward h n ((h x).bind (·.next))

/-- The objects found by following `prev` from `p`, at most `n` of them. -/
def backward (h : Heap) : Nat → Ptr → List Addr
  | 0, _ => []
  | _ + 1, none => []
  | n + 1, some x => x :: backward h n ((h x).bind (·.prev))

/-! Several lists on one heap, as the multi-queue caches have them. -/

/-- A list operation; `l` says which list. -/
inductive LOp where
  | prepend (l x : Nat)
  | append (l x : Nat)
  | toHead (l x : Nat)
  | toTail (l x : Nat)
  | remove (l x : Nat)
  | dropTail (l : Nat)

/-- When an operation may be called: a new object must be allocated and on no list, an object to move or to remove must be on the
list, and the tail of an empty list is not dropped. -/
def LOp.allowed (alloc : Addr → Prop) (q : Nat → List Addr) : LOp → Prop
  | .prepend _ x => alloc x ∧ ∀ k, x ∉ q k
  | .append _ x => alloc x ∧ ∀ k, x ∉ q k
  | .toHead l x => x ∈ q l
  | .toTail l x => x ∈ q l
  | .remove l x => x ∈ q l
  | .dropTail l => q l ≠ []

/-- What an operation does to the sequences. -/
def LOp.effect (q : Nat → List Addr) : LOp → Nat → List Addr
  | .prepend l x => fun k => if k = l then x :: q l else q k
  | .append l x => fun k => if k = l then q l ++ [x] else q k
  | .toHead l x => fun k => if k = l then x :: (q l).erase x else q k
  | .toTail l x => fun k => if k = l then (q l).erase x ++ [x] else q k
  | .remove l x => fun k => if k = l then (q l).erase x else q k
  | .dropTail l => fun k => if k = l then (q l).dropLast else q k

/-- every operation of the sequence is allowed when it is called -/
def LOp.allAllowed (alloc : Addr → Prop) : (Nat → List Addr) → List LOp → Prop
  | _, [] => True
  | q, op :: ops => op.allowed alloc q ∧ LOp.allAllowed alloc (op.effect q) ops

/-- The pointer program: one heap, one pair of end pointers per list. -/
structure Lists where
  h : Heap
  hd : Nat → Ptr
  tl : Nat → Ptr

/-- list number `l` -/
def Lists.get (m : Lists) (l : Nat) : St := ⟨m.h, m.hd l, m.tl l⟩

/-- write back the result of an operation on list `l` -/
def Lists.put (m : Lists) (l : Nat) (s : St) : Lists :=
  ⟨s.h, fun k => if k = l then s.hd else m.hd k, fun k => if k = l then s.tl else m.tl k⟩

/-- run one operation of the pointer code -/
def Lists.step (m : Lists) : LOp → Res Lists
  | .prepend l x => DList.prepend (m.get l) x >>= fun s => .ok (m.put l s)
  | .append l x => DList.append (m.get l) x >>= fun s => .ok (m.put l s)
  | .toHead l x => DList.moveToHead (m.get l) x >>= fun s => .ok (m.put l s)
  | .toTail l x => DList.moveToTail (m.get l) x >>= fun s => .ok (m.put l s)
  | .remove l x => DList.remove (m.get l) x >>= fun s => .ok (m.put l s)
  | .dropTail l => DList.dropTail (m.get l) >>= fun s => .ok (m.put l s)

def Lists.run (m : Lists) : List LOp → Res Lists
  | [] => .ok m
  | op :: ops => m.step op >>= fun m' => m'.run ops

/-- All lists are well-formed, and no object is on two of them. -/
structure AreLists (m : Lists) (q : Nat → List Addr) : Prop where
  each : ∀ l, IsList (m.get l) (q l)
  apart : ∀ k l x, x ∈ q k → x ∈ q l → k = l

end Verif.Spec
