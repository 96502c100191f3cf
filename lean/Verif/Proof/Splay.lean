import Verif.Spec.Splay
import Mathlib.Data.List.Basic
/-! # The splay tree is an ordered set with ranks: proofs -/

namespace Verif.Splay
open Verif.Spec

def size (t : Tree) : Int := (keysOf t).length

theorem nodeValue_eq {t : Tree} (h : Sized t) : nodeValue t = size t := by
  cases t with
  | nil => rfl
  | node l k v r => exact h.2.2

@[simp] theorem size_nil : size .nil = 0 := rfl
@[simp] theorem size_node (l k v r) : size (.node l k v r) = size l + size r + 1 := by
  simp [size, keysOf]; omega

theorem sized_node {l k v r} : Sized (.node l k v r) ↔ Sized l ∧ Sized r ∧ v = size l + size r + 1 := by
  rw [← size_node l k v r]; rfl

def lk (f : Frame) : List Int := keysOf f.sub ++ [f.key]
def rk (f : Frame) : List Int := f.key :: keysOf f.sub
/-- keys of the left partial tree -/
def lkeys (L : List Frame) : List Int := L.reverse.flatMap lk
/-- keys of the right partial tree -/
def rkeys (R : List Frame) : List Int := R.flatMap rk

@[simp] theorem lkeys_cons (f L) : lkeys (f :: L) = lkeys L ++ (keysOf f.sub ++ [f.key]) := by simp [lkeys, lk]
@[simp] theorem rkeys_cons (f R) : rkeys (f :: R) = f.key :: (keysOf f.sub ++ rkeys R) := by simp [rkeys, rk]

/-- the number of nodes of a partial tree -/
def tot : List Frame → Int
  | [] => 0
  | f :: fs => 1 + size f.sub + tot fs

theorem tot_append (a b) : tot (a ++ b) = tot a + tot b := by
  induction a with
  | nil => simp [tot]
  | cons f a ih => simp [tot, ih]; omega

theorem tot_reverse (a) : tot a.reverse = tot a := by
  induction a with
  | nil => rfl
  | cons f a ih => simp [tot_append, tot, ih]; omega

/-- What the loop keeps. -/
structure Keep (i : Int) (K : List Int) (s : St) : Prop where
  keys : lkeys s.L ++ (keysOf s.t ++ rkeys s.R) = K
  subL : ∀ f ∈ s.L, Sized f.sub
  subR : ∀ f ∈ s.R, Sized f.sub
  ls : s.ls = tot s.L
  rs : s.rs = tot s.R
  lt : ∀ x ∈ lkeys s.L, x < i
  gt : ∀ x ∈ rkeys s.R, i < x

/-- How the loop stops: at a node on whose side of `i` there is nothing more. -/
def Stop (i : Int) (s : St) : Prop :=
  ∃ l k v r, s.t = .node l k v r ∧ Sized l ∧ Sized r ∧ (i < k → l = .nil) ∧ (k < i → r = .nil)

theorem pairwise_mid {a b : List Int} {k} (h : (a ++ k :: b).Pairwise (· < ·)) : (∀ x ∈ a, x < k) ∧ (∀ x ∈ b, k < x) := by
  rw [List.pairwise_append] at h
  refine ⟨fun x hx => h.2.2 x hx k (by simp), fun x hx => ?_⟩
  exact (List.pairwise_cons.1 h.2.1).1 x hx

theorem loop_spec (i : Int) (K : List Int) (hK : K.Pairwise (· < ·)) (t : Tree) (L R : List Frame) (ls rs : Int)
    (hs : Sized t) (hn : t ≠ .nil) (hk : Keep i K ⟨t, L, R, ls, rs⟩) :
    Keep i K (loop i t L R ls rs) ∧ Stop i (loop i t L R ls rs) := by
  induction t, L, R, ls, rs using loop.induct (i := i) with
  | case1 => exact absurd rfl hn
  | case2 k v r L R ls rs hlt =>
    unfold loop; simp only [if_pos hlt]
    have h := sized_node.1 hs
    exact ⟨hk, .nil, k, v, r, rfl, h.1, h.2.1, fun _ => rfl, fun h' => by omega⟩
  | case3 k v r L R ls rs hlt yk yv yr hlt2 =>
    unfold loop; simp only [if_pos hlt]
    simp only [if_pos hlt2]
    obtain ⟨h1, h2, h3⟩ := sized_node.1 hs
    obtain ⟨g1, g2, g3⟩ := sized_node.1 h1
    refine ⟨⟨?_, hk.subL, hk.subR, hk.ls, hk.rs, hk.lt, hk.gt⟩, _, _, _, _, rfl, g1, ?_, fun _ => rfl, fun h' => by omega⟩
    · rw [← hk.keys]; simp [keysOf]
    · exact sized_node.2 ⟨g2, h2, by rw [nodeValue_eq g2, nodeValue_eq h2]⟩
  | case4 k v r L R ls rs hlt yk yv yr hlt2 t' a b c d ih =>
    unfold loop; simp only [if_pos hlt]
    simp only [if_pos hlt2]
    obtain ⟨h1, h2, h3⟩ := sized_node.1 hs
    obtain ⟨g1, g2, g3⟩ := sized_node.1 h1
    have hst : Sized t' := sized_node.2 ⟨g2, h2, by rw [nodeValue_eq g2, nodeValue_eq h2]⟩
    refine ih g1 (by simp) ⟨?_, hk.subL, ?_, hk.ls, ?_, hk.lt, ?_⟩
    · rw [← hk.keys]; simp [keysOf, t']
    · intro f hf
      rcases List.mem_cons.1 hf with rfl | hf
      · exact hst
      · exact hk.subR f hf
    · have := hk.rs
      simp only at this
      simp only [tot, nodeValue_eq hst]; omega
    · intro x hx
      have hkk : (keysOf (.node (.node (.node a b c d) yk yv yr) k v r)).Pairwise (· < ·) := by
        have := hk.keys ▸ hK
        exact (List.pairwise_append.1 (List.pairwise_append.1 this).2.1).1
      simp only [rkeys_cons, List.mem_cons, List.mem_append, t', keysOf] at hx
      obtain ⟨p1, p2⟩ := pairwise_mid hkk
      have hyk : (keysOf (.node (.node a b c d) yk yv yr)).Pairwise (· < ·) := (List.pairwise_append.1 hkk).1
      obtain ⟨q1, q2⟩ := pairwise_mid hyk
      rcases hx with rfl | (hx | rfl | hx) | hx
      · omega
      · have := q2 x hx; omega
      · omega
      · have := p2 x hx; omega
      · exact hk.gt x hx
  | case5 k v r L R ls rs hlt yl yk yv yr hlt2 ih =>
    unfold loop; simp only [if_pos hlt]
    simp only [if_neg hlt2]
    obtain ⟨h1, h2, h3⟩ := sized_node.1 hs
    refine ih h1 (by simp) ⟨?_, hk.subL, ?_, hk.ls, ?_, hk.lt, ?_⟩
    · rw [← hk.keys]; simp [keysOf]
    · intro f hf
      rcases List.mem_cons.1 hf with rfl | hf
      · exact h2
      · exact hk.subR f hf
    · have := hk.rs
      simp only at this
      simp only [tot, nodeValue_eq h2]; omega
    · intro x hx
      have hkk : (keysOf (.node (.node yl yk yv yr) k v r)).Pairwise (· < ·) := by
        have := hk.keys ▸ hK
        exact (List.pairwise_append.1 (List.pairwise_append.1 this).2.1).1
      obtain ⟨p1, p2⟩ := pairwise_mid hkk
      simp only [rkeys_cons, List.mem_cons, List.mem_append] at hx
      rcases hx with rfl | hx | hx
      · omega
      · have := p2 x hx; omega
      · exact hk.gt x hx
  | case6 l k v L R ls rs hlt hgt =>
    unfold loop; simp only [if_neg hlt, if_pos hgt]
    have h := sized_node.1 hs
    exact ⟨hk, l, k, v, .nil, rfl, h.1, h.2.1, fun h' => by omega, fun _ => rfl⟩
  | case7 l k v L R ls rs hlt hgt yl yk yv hgt2 =>
    unfold loop; simp only [if_neg hlt, if_pos hgt]
    simp only [if_pos hgt2]
    obtain ⟨h1, h2, h3⟩ := sized_node.1 hs
    obtain ⟨g1, g2, g3⟩ := sized_node.1 h2
    refine ⟨⟨?_, hk.subL, hk.subR, hk.ls, hk.rs, hk.lt, hk.gt⟩, _, _, _, _, rfl, ?_, g2, fun h' => by omega, fun _ => rfl⟩
    · rw [← hk.keys]; simp [keysOf]
    · exact sized_node.2 ⟨h1, g1, by rw [nodeValue_eq h1, nodeValue_eq g1]⟩
  | case8 l k v L R ls rs hlt hgt yl yk yv hgt2 t' a b c d ih =>
    unfold loop; simp only [if_neg hlt, if_pos hgt]
    simp only [if_pos hgt2]
    obtain ⟨h1, h2, h3⟩ := sized_node.1 hs
    obtain ⟨g1, g2, g3⟩ := sized_node.1 h2
    have hst : Sized t' := sized_node.2 ⟨h1, g1, by rw [nodeValue_eq h1, nodeValue_eq g1]⟩
    refine ih g2 (by simp) ⟨?_, ?_, hk.subR, ?_, hk.rs, ?_, hk.gt⟩
    · rw [← hk.keys]; simp [keysOf, t']
    · intro f hf
      rcases List.mem_cons.1 hf with rfl | hf
      · exact hst
      · exact hk.subL f hf
    · have := hk.ls
      simp only at this
      simp only [tot, nodeValue_eq hst]; omega
    · intro x hx
      have hkk : (keysOf (.node l k v (.node yl yk yv (.node a b c d)))).Pairwise (· < ·) := by
        have := hk.keys ▸ hK
        exact (List.pairwise_append.1 (List.pairwise_append.1 this).2.1).1
      obtain ⟨p1, p2⟩ := pairwise_mid hkk
      have hyk : (keysOf (.node yl yk yv (.node a b c d))).Pairwise (· < ·) := (List.pairwise_cons.1 (List.pairwise_append.1 hkk).2.1).2
      obtain ⟨q1, q2⟩ := pairwise_mid hyk
      simp only [lkeys_cons, List.mem_cons, List.mem_append, t', keysOf, List.not_mem_nil, or_false] at hx
      rcases hx with hx | (hx | rfl | hx) | rfl
      · exact hk.lt x hx
      · have := p1 x hx; omega
      · omega
      · have := q1 x hx; omega
      · omega
  | case9 l k v L R ls rs hlt hgt yl yk yv yr hgt2 ih =>
    unfold loop; simp only [if_neg hlt, if_pos hgt]
    simp only [if_neg hgt2]
    obtain ⟨h1, h2, h3⟩ := sized_node.1 hs
    refine ih h2 (by simp) ⟨?_, ?_, hk.subR, ?_, hk.rs, ?_, hk.gt⟩
    · rw [← hk.keys]; simp [keysOf]
    · intro f hf
      rcases List.mem_cons.1 hf with rfl | hf
      · exact h1
      · exact hk.subL f hf
    · have := hk.ls
      simp only at this
      simp only [tot, nodeValue_eq h1]; omega
    · intro x hx
      have hkk : (keysOf (.node l k v (.node yl yk yv yr))).Pairwise (· < ·) := by
        have := hk.keys ▸ hK
        exact (List.pairwise_append.1 (List.pairwise_append.1 this).2.1).1
      obtain ⟨p1, p2⟩ := pairwise_mid hkk
      simp only [lkeys_cons, List.mem_cons, List.mem_append, List.not_mem_nil, or_false] at hx
      rcases hx with hx | hx | rfl
      · exact hk.lt x hx
      · have := p1 x hx; omega
      · omega
  | case10 l k v r L R ls rs hlt hgt =>
    unfold loop; simp only [if_neg hlt, if_neg hgt]
    have h := sized_node.1 hs
    exact ⟨hk, l, k, v, r, rfl, h.1, h.2.1, fun h' => by omega, fun h' => by omega⟩

theorem keys_buildL (fs : List Frame) (b : Tree) : keysOf (buildL fs b) = fs.flatMap lk ++ keysOf b := by
  induction fs with
  | nil => rfl
  | cons f fs ih => simp [buildL, keysOf, ih, lk]

theorem keys_buildR (fs : List Frame) (b : Tree) : keysOf (buildR fs b) = keysOf b ++ fs.reverse.flatMap rk := by
  induction fs with
  | nil => simp [buildR]
  | cons f fs ih => simp [buildR, keysOf, ih, rk]

theorem fix_lk (fs s) : (fix fs s).flatMap lk = fs.flatMap lk := by
  induction fs generalizing s with
  | nil => rfl
  | cons f fs ih => simp [fix, ih, lk]

theorem fix_rk (fs s) : (fix fs s).reverse.flatMap rk = fs.reverse.flatMap rk := by
  induction fs generalizing s with
  | nil => rfl
  | cons f fs ih => simp [fix, ih, rk]

theorem size_buildL (fs : List Frame) (b) : size (buildL fs b) = tot fs + size b := by
  induction fs with
  | nil => simp [buildL, tot]
  | cons f fs ih => simp [buildL, tot, ih]; omega

theorem size_buildR (fs : List Frame) (b) : size (buildR fs b) = tot fs + size b := by
  induction fs with
  | nil => simp [buildR, tot]
  | cons f fs ih => simp [buildR, tot, ih]; omega

theorem tot_fix (fs s) : tot (fix fs s) = tot fs := by
  induction fs generalizing s with
  | nil => rfl
  | cons f fs ih => simp [fix, tot, ih]

theorem sized_buildL {fs : List Frame} {b s} (hf : ∀ f ∈ fs, Sized f.sub) (hb : Sized b) (hs : s = tot fs + size b) :
    Sized (buildL (fix fs s) b) := by
  induction fs generalizing s with
  | nil => exact hb
  | cons f fs ih =>
    have h1 := hf f (by simp)
    have h2 := ih (s := s - (1 + nodeValue f.sub)) (fun g hg => hf g (by simp [hg])) (by
      rw [hs, nodeValue_eq h1]; simp only [tot]; omega)
    refine sized_node.2 ⟨h1, h2, ?_⟩
    rw [size_buildL, tot_fix, hs]; simp only [tot]; omega

theorem sized_buildR {fs : List Frame} {b s} (hf : ∀ f ∈ fs, Sized f.sub) (hb : Sized b) (hs : s = tot fs + size b) :
    Sized (buildR (fix fs s) b) := by
  induction fs generalizing s with
  | nil => exact hb
  | cons f fs ih =>
    have h1 := hf f (by simp)
    have h2 := ih (s := s - (1 + nodeValue f.sub)) (fun g hg => hf g (by simp [hg])) (by
      rw [hs, nodeValue_eq h1]; simp only [tot]; omega)
    refine sized_node.2 ⟨h2, h1, ?_⟩
    rw [size_buildR, tot_fix, hs]; simp only [tot]; omega

/-- What `splay` gives. -/
theorem splay_spec (i : Int) {t : Tree} (h : GoodTree t) (hn : t ≠ .nil) :
    ∃ l k r, splay i t = .node l k (size t) r ∧ GoodTree (splay i t) ∧ keysOf (splay i t) = keysOf t ∧
      Sized l ∧ Sized r ∧ (∀ x ∈ keysOf l, x < i) ∧ (∀ x ∈ keysOf r, i < x) := by
  have hk0 : Keep i (keysOf t) ⟨t, [], [], 0, 0⟩ :=
    ⟨by simp [lkeys, rkeys], by simp, by simp, rfl, rfl, by simp [lkeys], by simp [rkeys]⟩
  obtain ⟨hk, l, k, v, r, ht, hl, hr, hil, hir⟩ := loop_spec i _ h.sorted t [] [] 0 0 h.sized hn hk0
  have hsp : splay i t = .node (buildL (fix (loop i t [] [] 0 0).L.reverse ((loop i t [] [] 0 0).ls + nodeValue l)) l) k
      ((loop i t [] [] 0 0).ls + nodeValue l + ((loop i t [] [] 0 0).rs + nodeValue r) + 1)
      (buildR (fix (loop i t [] [] 0 0).R.reverse ((loop i t [] [] 0 0).rs + nodeValue r)) r) := by
    cases t with
    | nil => exact absurd rfl hn
    | node => simp only [splay, ht]
  generalize loop i t [] [] 0 0 = s at *
  have eL : s.ls + nodeValue l = tot s.L.reverse + size l := by rw [hk.ls, tot_reverse, nodeValue_eq hl]
  have eR : s.rs + nodeValue r = tot s.R.reverse + size r := by rw [hk.rs, tot_reverse, nodeValue_eq hr]
  have sL := sized_buildL (s := s.ls + nodeValue l) (fun f hf => hk.subL f (List.mem_reverse.1 hf)) hl eL
  have sR := sized_buildR (s := s.rs + nodeValue r) (fun f hf => hk.subR f (List.mem_reverse.1 hf)) hr eR
  have kL : keysOf (buildL (fix s.L.reverse (s.ls + nodeValue l)) l) = lkeys s.L ++ keysOf l := by
    rw [keys_buildL, fix_lk]; rfl
  have kR : keysOf (buildR (fix s.R.reverse (s.rs + nodeValue r)) r) = keysOf r ++ rkeys s.R := by
    rw [keys_buildR, fix_rk, List.reverse_reverse]; rfl
  have hkeys : keysOf (splay i t) = keysOf t := by
    rw [hsp, keysOf, kL, kR, ← hk.keys, ht]; simp [keysOf]
  have hval : s.ls + nodeValue l + (s.rs + nodeValue r) + 1 =
      size (buildL (fix s.L.reverse (s.ls + nodeValue l)) l) + size (buildR (fix s.R.reverse (s.rs + nodeValue r)) r) + 1 := by
    rw [size_buildL, size_buildR, tot_fix, tot_fix, eL, eR]
  have hvt : s.ls + nodeValue l + (s.rs + nodeValue r) + 1 = size t := by
    have : size (splay i t) = size t := by rw [size, hkeys]; rfl
    rw [hsp, size_node] at this
    rw [hval]; exact this
  have hsz : Sized (splay i t) := by rw [hsp]; exact sized_node.2 ⟨sL, sR, hval⟩
  have hsort : (keysOf (splay i t)).Pairwise (· < ·) := hkeys ▸ h.sorted
  refine ⟨_, k, _, by rw [hsp, hvt], ⟨hsort, hsz⟩, hkeys, sL, sR, ?_, ?_⟩
  · intro x hx
    rw [kL] at hx
    rcases List.mem_append.1 hx with hx | hx
    · exact hk.lt x hx
    · by_cases hik : i < k
      · rw [hil hik] at hx; simp [keysOf] at hx
      · have hp := (pairwise_mid (k := k) (a := lkeys s.L ++ keysOf l) (b := keysOf r ++ rkeys s.R) (by
          rw [hsp, keysOf, kL, kR] at hsort; exact hsort)).1 x (List.mem_append_right _ hx)
        omega
  · intro x hx
    rw [kR] at hx
    rcases List.mem_append.1 hx with hx | hx
    · by_cases hik : k < i
      · rw [hir hik] at hx; simp [keysOf] at hx
      · have hp := (pairwise_mid (k := k) (a := lkeys s.L ++ keysOf l) (b := keysOf r ++ rkeys s.R) (by
          rw [hsp, keysOf, kL, kR] at hsort; exact hsort)).2 x (List.mem_append_left _ hx)
        omega
    · exact hk.gt x hx

theorem good_nil : GoodTree .nil := ⟨by simp [keysOf], trivial⟩

theorem splay_good (i : Int) {t : Tree} (h : GoodTree t) : GoodTree (splay i t) ∧ keysOf (splay i t) = keysOf t := by
  by_cases hn : t = .nil
  · subst hn; exact ⟨good_nil, rfl⟩
  · obtain ⟨l, k, r, _, h1, h2, _⟩ := splay_spec i h hn
    exact ⟨h1, h2⟩

theorem sorted_mid {a b : List Int} {i : Int} (ha : a.Pairwise (· < ·)) (hb : b.Pairwise (· < ·)) (h1 : ∀ x ∈ a, x < i) (h2 : ∀ x ∈ b, i < x) :
    (a ++ i :: b).Pairwise (· < ·) := by
  rw [List.pairwise_append, List.pairwise_cons]
  refine ⟨ha, ⟨h2, hb⟩, ?_⟩
  intro x hx y hy
  rcases List.mem_cons.1 hy with rfl | hy
  · exact h1 x hx
  · exact Int.lt_trans (h1 x hx) (h2 y hy)

theorem insert_spec (i : Int) {t : Tree} (h : GoodTree t) :
    GoodTree (insert i t) ∧ (∀ x, x ∈ keysOf (insert i t) ↔ x = i ∨ x ∈ keysOf t) ∧ ∃ l v r, insert i t = .node l i v r := by
  by_cases hn : t = .nil
  · subst hn
    exact ⟨⟨by simp [insert, keysOf], by simp [insert, Sized, keysOf]⟩, by simp [insert, keysOf], _, _, _, rfl⟩
  · obtain ⟨l, k, r, hsp, hg, hkeys, sl, sr, hlt, hgt⟩ := splay_spec i h hn
    have hins : insert i t = match splay i t with
        | .nil => .nil
        | .node l k v r =>
          if i - k < 0 then .node l i (1 + nodeValue l + nodeValue (Tree.node .nil k (1 + nodeValue r) r)) (.node .nil k (1 + nodeValue r) r)
          else if i - k > 0 then .node (.node l k (1 + nodeValue l) .nil) i (1 + nodeValue (Tree.node l k (1 + nodeValue l) .nil) + nodeValue r) r
          else .node l k v r := by
      cases t with
      | nil => exact absurd rfl hn
      | node => rfl
    rw [hsp] at hkeys hg hins
    simp only at hins
    have hso := hg.sorted
    simp only [keysOf] at hkeys hso
    obtain ⟨p1, p2⟩ := pairwise_mid hso
    have so1 := (List.pairwise_append.1 hso).1
    have so2 := (List.pairwise_append.1 hso).2.1
    have so3 := (List.pairwise_cons.1 so2).2
    by_cases h1 : i - k < 0
    · rw [if_pos h1] at hins
      rw [hins]
      refine ⟨⟨?_, ?_⟩, ?_, _, _, _, rfl⟩
      · simp only [keysOf, List.nil_append]
        refine sorted_mid so1 so2 hlt (fun x hx => ?_)
        rcases List.mem_cons.1 hx with rfl | hx
        · omega
        · exact hgt x hx
      · refine sized_node.2 ⟨sl, sized_node.2 ⟨trivial, sr, ?_⟩, ?_⟩
        · rw [nodeValue_eq sr]; simp; omega
        · have e1 := nodeValue_eq sl; have e2 := nodeValue_eq sr; simp only [size_node, size_nil]; have e3 : nodeValue (Tree.node .nil k (1 + nodeValue r) r) = 1 + nodeValue r := rfl; omega
      · intro x; rw [← hkeys]; simp only [keysOf, List.mem_append, List.mem_cons, List.nil_append]; tauto
    · rw [if_neg h1] at hins
      by_cases h2 : i - k > 0
      · rw [if_pos h2] at hins
        rw [hins]
        refine ⟨⟨?_, ?_⟩, ?_, _, _, _, rfl⟩
        · simp only [keysOf]
          refine sorted_mid (sorted_mid so1 (by simp) p1 (by simp)) so3 (fun x hx => ?_) hgt
          rcases List.mem_append.1 hx with hx | hx
          · exact hlt x hx
          · simp at hx; omega
        · refine sized_node.2 ⟨sized_node.2 ⟨sl, trivial, ?_⟩, sr, ?_⟩
          · rw [nodeValue_eq sl]; simp; omega
          · have e1 := nodeValue_eq sl; have e2 := nodeValue_eq sr; simp only [size_node, size_nil]; have e3 : nodeValue (Tree.node l k (1 + nodeValue l) .nil) = 1 + nodeValue l := rfl; omega
        · intro x; rw [← hkeys]; simp only [keysOf, List.mem_append, List.mem_cons, List.not_mem_nil, or_false]; tauto
      · rw [if_neg h2] at hins
        have hik : k = i := by omega
        subst hik
        rw [hins]
        refine ⟨hg, ?_, _, _, _, rfl⟩
        intro x; rw [← hkeys]; simp only [keysOf, List.mem_append, List.mem_cons]; tauto

theorem delete_spec (i : Int) {t : Tree} (h : GoodTree t) :
    GoodTree (delete i t) ∧ (∀ x, x ∈ keysOf (delete i t) ↔ x ∈ keysOf t ∧ x ≠ i) := by
  by_cases hn : t = .nil
  · subst hn; exact ⟨good_nil, by simp [delete, keysOf]⟩
  · obtain ⟨l, k, r, hsp, hg, hkeys, sl, sr, hlt, hgt⟩ := splay_spec i h hn
    have hdel : delete i t = match splay i t with
        | .nil => .nil
        | .node l k v r =>
          if i - k = 0 then
            match l with
            | .nil => setValue (size t - 1) r
            | .node .. => setValue (size t - 1) (setRight r (splay i l))
          else .node l k v r := by
      cases t with
      | nil => exact absurd rfl hn
      | node a b c d =>
        have := (sized_node.1 h.sized).2.2
        simp only [delete, size_node, ← this]
        rfl
    have hszs : size t = size l + size r + 1 := by
      rw [hsp] at hg; exact (sized_node.1 hg.sized).2.2
    rw [hsp] at hkeys hg hdel
    simp only at hdel
    have hso := hg.sorted
    simp only [keysOf] at hkeys hso
    obtain ⟨p1, p2⟩ := pairwise_mid hso
    have so1 := (List.pairwise_append.1 hso).1
    have so2 := (List.pairwise_append.1 hso).2.1
    have so3 := (List.pairwise_cons.1 so2).2
    by_cases h1 : i - k = 0
    · have hik : k = i := by omega
      subst hik
      rw [if_pos h1] at hdel
      have hmem : ∀ x, x ∈ keysOf l ++ keysOf r ↔ x ∈ keysOf t ∧ x ≠ k := by
        intro x
        rw [← hkeys]
        simp only [List.mem_append, List.mem_cons]
        constructor
        · rintro (hx | hx)
          · have := p1 x hx; exact ⟨Or.inl hx, by omega⟩
          · have := p2 x hx; exact ⟨Or.inr (Or.inr hx), by omega⟩
        · rintro ⟨hx | rfl | hx, hne⟩
          · exact Or.inl hx
          · exact absurd rfl hne
          · exact Or.inr hx
      cases l with
      | nil =>
        simp only at hdel
        rw [hdel]
        have hval : setValue (size t - 1) r = r := by
          cases r with
          | nil => rfl
          | node a b c d =>
            have := (sized_node.1 sr).2.2
            simp only [setValue]; congr 1
            simp only [size_node, size_nil] at hszs; omega
        rw [hval]
        exact ⟨⟨so3, sr⟩, by simpa [keysOf] using hmem⟩
      | node a b c d =>
        simp only at hdel
        obtain ⟨l2, k2, r2, hsp2, hg2, hkeys2, sl2, sr2, hlt2, hgt2⟩ := splay_spec k ⟨so1, sl⟩ (by simp)
        have hr2 : r2 = .nil := by
          cases hr2 : r2 with
          | nil => rfl
          | node a' b' c' d' =>
            exfalso
            have hm : b' ∈ keysOf r2 := by rw [hr2]; simp [keysOf]
            have g1 := hgt2 b' hm
            have : b' ∈ keysOf (splay k (.node a b c d)) := by rw [hsp2, keysOf]; simp [hm]
            rw [hkeys2] at this
            have g2 := hlt b' this
            omega
        subst hr2
        rw [hsp2] at hdel hkeys2
        simp only [setRight, setValue] at hdel
        have hkk : keysOf l2 ++ [k2] = keysOf (.node a b c d) := by rw [← hkeys2]; simp [keysOf]
        rw [hdel]
        have hkd : keysOf (.node l2 k2 (size t - 1) r) = keysOf (.node a b c d) ++ keysOf r := by
          rw [← hkk]; simp [keysOf]
        refine ⟨⟨?_, ?_⟩, ?_⟩
        · rw [hkd, List.pairwise_append]
          refine ⟨so1, so3, fun x hx y hy => ?_⟩
          have := p1 x hx; have := p2 y hy; omega
        · refine sized_node.2 ⟨sl2, sr, ?_⟩
          have : size (Tree.node a b c d) = size l2 + 1 := by
            rw [size, ← hkk]; simp [size]
          rw [hszs, this]; omega
        · intro x; rw [hkd]; exact hmem x
    · rw [if_neg h1] at hdel
      rw [hdel]
      refine ⟨hg, fun x => ?_⟩
      have : x ∈ keysOf (Tree.node l k (size t) r) ↔ x ∈ keysOf t := by rw [← hkeys]; simp [keysOf]
      rw [this]
      constructor
      · intro hx
        refine ⟨hx, ?_⟩
        rw [← hkeys] at hx
        rcases List.mem_append.1 hx with hx | hx
        · have := hlt x hx; omega
        · rcases List.mem_cons.1 hx with rfl | hx
          · omega
          · have := hgt x hx; omega
      · exact fun hx => hx.1

end Verif.Splay
