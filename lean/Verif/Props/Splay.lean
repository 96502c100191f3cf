import Verif.Proof.Splay
/-! # C29: the splay tree is an ordered set with ranks, for every sequence of operations -/

namespace Verif.Props
open Verif.Splay Verif.Spec

theorem splay_run (ops : List SOp) : ∀ (t : Tree), GoodTree t → ∀ (m : Int → Prop), (∀ x, x ∈ keysOf t ↔ m x) →
    GoodTree (ops.foldl SOp.exec t) ∧ ∀ x, x ∈ keysOf (ops.foldl SOp.exec t) ↔ ops.foldl SOp.member m x := by
  induction ops with
  | nil => exact fun t h m hm => ⟨h, hm⟩
  | cons op ops ih =>
    intro t h m hm
    refine ih (op.exec t) ?_ (op.member m) ?_
    · cases op with
      | splay k => exact (splay_good k h).1
      | insert k => exact (insert_spec k h).1
      | delete k => exact (delete_spec k h).1
    · intro x
      cases op with
      | splay k => simp only [SOp.exec, SOp.member]; rw [(splay_good k h).2]; exact hm x
      | insert k => simp only [SOp.exec, SOp.member]; rw [(insert_spec k h).2.1, hm]
      | delete k => simp only [SOp.exec, SOp.member]; rw [(delete_spec k h).2, hm]

/-- C29.  After any sequence of `splay`, `insert` and `splay_delete` on an empty tree, the tree is a search tree whose recorded sizes are right, and
it contains exactly the keys inserted and not deleted since. -/
theorem C29_splaySet (ops : List SOp) :
    GoodTree (ops.foldl SOp.exec .nil) ∧
    ∀ x, x ∈ keysOf (ops.foldl SOp.exec .nil) ↔ ops.foldl SOp.member (fun _ => False) x :=
  splay_run ops .nil good_nil _ (by simp [keysOf])

/-- C29.  Looking up a key that is present brings it to the root, and then the sizes recorded at the root's two subtrees are the numbers of
smaller and larger keys.  `splay` changes neither the keys nor the recorded total. -/
theorem C29_rank (ops : List SOp) (k : Int) (hk : k ∈ keysOf (ops.foldl SOp.exec .nil)) :
    ∃ l v r, splay k (ops.foldl SOp.exec .nil) = .node l k v r ∧
      nodeValue l = ((keysOf (ops.foldl SOp.exec .nil)).countP (· < k) : Int) ∧
      nodeValue r = ((keysOf (ops.foldl SOp.exec .nil)).countP (k < ·) : Int) ∧
      v = ((keysOf (ops.foldl SOp.exec .nil)).length : Int) ∧
      keysOf (splay k (ops.foldl SOp.exec .nil)) = keysOf (ops.foldl SOp.exec .nil) := by
  have hg := (C29_splaySet ops).1
  generalize ops.foldl SOp.exec .nil = t at *
  have hn : t ≠ .nil := fun h => by rw [h] at hk; simp [keysOf] at hk
  obtain ⟨l, k', r, hsp, _, hkeys, sl, sr, hlt, hgt⟩ := splay_spec k hg hn
  have hkk : k' = k := by
    rw [← hkeys, hsp, keysOf] at hk
    rcases List.mem_append.1 hk with h | h
    · have := hlt k h; omega
    · rcases List.mem_cons.1 h with h | h
      · exact h.symm
      · have := hgt k h; omega
  subst hkk
  refine ⟨l, _, r, hsp, ?_, ?_, rfl, hkeys⟩
  · rw [nodeValue_eq sl, ← hkeys, hsp, keysOf, List.countP_append, List.countP_cons]
    have h1 : (keysOf l).countP (· < k') = (keysOf l).length := List.countP_eq_length.2 (fun x hx => by simpa using hlt x hx)
    have h2 : (keysOf r).countP (· < k') = 0 := List.countP_eq_zero.2 (fun x hx => by have := hgt x hx; simp; omega)
    simp [h1, h2, size]
  · rw [nodeValue_eq sr, ← hkeys, hsp, keysOf, List.countP_append, List.countP_cons]
    have h1 : (keysOf r).countP (k' < ·) = (keysOf r).length := List.countP_eq_length.2 (fun x hx => by simpa using hgt x hx)
    have h2 : (keysOf l).countP (k' < ·) = 0 := List.countP_eq_zero.2 (fun x hx => by have := hlt x hx; simp; omega)
    simp [h1, h2, size]

/-! Concrete case: nine insertions in mixed order (one repeated), two deletions of present keys, one of an absent key. -/

def demoSOps : List SOp :=
  [.insert 5, .insert 9, .insert 1, .insert 7, .insert 3, .insert 7, .insert 8, .delete 5, .insert 2, .splay 4, .delete 6, .delete 1, .insert 4]

example : keysOf (demoSOps.foldl SOp.exec .nil) = [2, 3, 4, 7, 8, 9] := by decide +kernel
example : splay 7 (demoSOps.foldl SOp.exec .nil) =
    .node (.node (.node (.node .nil 2 1 .nil) 3 2 .nil) 4 3 .nil) 7 6 (.node .nil 8 2 (.node .nil 9 1 .nil)) := by decide +kernel

end Verif.Props
