import Verif.Data.Splay
/-!
# Ordered sets with ranks
-/

namespace Verif.Spec
open Verif.Splay

/-- The keys of a tree from left to right. -/
def keysOf : Tree → List Int
  | .nil => []
  | .node l k _ r => keysOf l ++ k :: keysOf r

/-- Every node records the number of nodes below and including it. -/
def Sized : Tree → Prop
  | .nil => True
  | .node l k v r => Sized l ∧ Sized r ∧ v = ((keysOf (.node l k v r)).length : Int)

/-- A search tree with right sizes. -/
structure GoodTree (t : Tree) : Prop where
  sorted : (keysOf t).Pairwise (· < ·)
  sized : Sized t

inductive SOp where
  | splay (k : Int)
  | insert (k : Int)
  | delete (k : Int)

/-- The C calls. -/
def SOp.exec (t : Tree) : SOp → Tree
  | .splay k => Splay.splay k t
  | .insert k => Splay.insert k t
  | .delete k => Splay.delete k t

/-- Membership afterwards. -/
def SOp.member (m : Int → Prop) : SOp → Int → Prop
  | .splay _, x => m x
  | .insert k, x => x = k ∨ m x
  | .delete k, x => m x ∧ x ≠ k

end Verif.Spec
