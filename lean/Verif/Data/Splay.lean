/-!
# The splay tree with subtree sizes, libCacheSim/dataStructure/splay.c

Trees are values: the pointer structure is a tree, and the code relinks nodes without sharing.  The two partial trees hanging off
the auxiliary node `N` during a top-down splay are the lists of nodes linked so far, the one linked last (`l`, `r`) first, each
with the subtree on its far side.  `long` and `long long` are integers; overflow of `key_cmp(i,j) = i - j` is not modelled.
-/

namespace Verif.Splay

/-- `sTree`, splay.h:29-33; `value` is meant to be the number of nodes in the subtree -/
inductive Tree where
  | nil
  | node (left : Tree) (key : Int) (value : Int) (right : Tree)
deriving DecidableEq, Repr

/-- `node_value`, splay.h:23 -/
def nodeValue : Tree → Int
  | .nil => 0
  | .node _ _ v _ => v

/-- A node linked into one of the partial trees: the subtree on its far side, `key`, `value`. -/
structure Frame where
  sub : Tree
  key : Int
  value : Int
deriving DecidableEq, Repr

/-- `t`, the left and right partial trees, `l_size`, `r_size` -/
structure St where
  t : Tree
  L : List Frame
  R : List Frame
  ls : Int
  rs : Int

/-- the `for (;;)` loop of `splay`, splay.c:69-102 -/
def loop (i : Int) : Tree → List Frame → List Frame → Int → Int → St
  | .nil, L, R, ls, rs => ⟨.nil, L, R, ls, rs⟩
  | .node l k v r, L, R, ls, rs =>
    if i - k < 0 then
      match l with
      | .nil => ⟨.node .nil k v r, L, R, ls, rs⟩
      | .node yl yk yv yr =>
        if i - yk < 0 then
          let t' := Tree.node yr k (nodeValue yr + nodeValue r + 1) r
          match yl with
          | .nil => ⟨.node .nil yk yv t', L, R, ls, rs⟩
          | .node a b c d => loop i (.node a b c d) L (⟨t', yk, yv⟩ :: R) ls (rs + (1 + nodeValue t'))
        else loop i (.node yl yk yv yr) L (⟨r, k, v⟩ :: R) ls (rs + (1 + nodeValue r))
    else if i - k > 0 then
      match r with
      | .nil => ⟨.node l k v .nil, L, R, ls, rs⟩
      | .node yl yk yv yr =>
        if i - yk > 0 then
          let t' := Tree.node l k (nodeValue l + nodeValue yl + 1) yl
          match yr with
          | .nil => ⟨.node t' yk yv .nil, L, R, ls, rs⟩
          | .node a b c d => loop i (.node a b c d) (⟨t', yk, yv⟩ :: L) R (ls + (1 + nodeValue t')) rs
        else loop i (.node yl yk yv yr) (⟨l, k, v⟩ :: L) R (ls + (1 + nodeValue l)) rs
    else ⟨.node l k v r, L, R, ls, rs⟩

/-- the two loops correcting the size fields, 114-121, over the partial tree from its root -/
def fix : List Frame → Int → List Frame
  | [], _ => []
  | f :: fs, s => { f with value := s } :: fix fs (s - (1 + nodeValue f.sub))

/-- the left partial tree with `b` at the end of its right spine: `l->right = t->left; t->left = N.right`, 123-125 -/
def buildL : List Frame → Tree → Tree
  | [], b => b
  | f :: fs, b => .node f.sub f.key f.value (buildL fs b)

/-- the right partial tree with `b` at the end of its left spine, 124-126 -/
def buildR : List Frame → Tree → Tree
  | [], b => b
  | f :: fs, b => .node (buildR fs b) f.key f.value f.sub

/-- `splay`, 61-128 -/
def splay (i : Int) (t : Tree) : Tree :=
  match t with
  | .nil => .nil
  | .node .. =>
    let s := loop i t [] [] 0 0
    match s.t with
    | .nil => .nil
    | .node tl k _ tr =>
      let ls := s.ls + nodeValue tl
      let rs := s.rs + nodeValue tr
      .node (buildL (fix s.L.reverse ls) tl) k (ls + rs + 1) (buildR (fix s.R.reverse rs) tr)

/-- `insert`, 155-190 -/
def insert (i : Int) (t : Tree) : Tree :=
  match t with
  | .nil => .node .nil i 1 .nil
  | .node .. =>
    match splay i t with
    | .nil => .nil
    | .node l k v r =>
      if i - k < 0 then
        let t' := Tree.node .nil k (1 + nodeValue r) r
        .node l i (1 + nodeValue l + nodeValue t') t'
      else if i - k > 0 then
        let t' := Tree.node l k (1 + nodeValue l) .nil
        .node t' i (1 + nodeValue t' + nodeValue r) r
      else .node l k v r

/-- `x->value = v` if `x` is not NULL, 211-213 -/
def setValue (v : Int) : Tree → Tree
  | .nil => .nil
  | .node l k _ r => .node l k v r

/-- `x->right = r`, 208 -/
def setRight (r : Tree) : Tree → Tree
  | .nil => .nil
  | .node l k v _ => .node l k v r

/-- `splay_delete`, 192-217 -/
def delete (i : Int) (t : Tree) : Tree :=
  match t with
  | .nil => .nil
  | .node _ _ rootValue _ =>
    match splay i t with
    | .nil => .nil
    | .node l k v r =>
      if i - k = 0 then
        match l with
        | .nil => setValue (rootValue - 1) r
        | .node .. => setValue (rootValue - 1) (setRight r (splay i l))
      else .node l k v r

end Verif.Splay
