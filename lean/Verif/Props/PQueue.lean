import Verif.Proof.PQueue
import Mathlib.Data.Int.Order.Basic
/-! # C28: the priority queue gives the largest priority, for every sequence of calls -/

namespace Verif.Props
open Verif.PQueue Verif.Spec

variable {P : Type} [LinearOrder P]

/-- C28.  From an empty queue, whatever its initial capacity (the array grows) and whatever is in the nodes, every sequence of permitted calls runs without
a fault, reads no slot it has not written, and each call does what a priority queue does: `peek` and `pop` give an element of
largest priority, `remove` and `change_priority` affect the given element and no other. -/
theorem C28_pqueue (n : Nat) (pri : Node → P) (pos : Node → Nat) (ops : List (POp P)) : POp.Good ops (init n pri pos) [] :=
  good ops _ _ ⟨init_inv n pri pos, fun e he => by simp at he⟩

/-- Popping until the queue is empty. -/
def drain : Nat → Q P → Res (List Node)
  | 0, _ => .ok []
  | k + 1, q => pop q >>= fun r => match r.1 with
    | none => .ok []
    | some x => drain k r.2 >>= fun l => .ok (x :: l)

/-- the states reached by inserting the pairs of `l` in order -/
def fillWith : Q P → List (Node × P) → Res (Q P)
  | q, [] => .ok q
  | q, e :: l => insert (setPri q e.1 e.2) e.1 >>= fun q => fillWith q l

theorem fillWith_rel : ∀ (l : List (Node × P)) (q : Q P) (b : Bag P), Rel q b → ((l ++ b).map Prod.fst).Nodup →
    ∃ q', fillWith q l = .ok q' ∧ ∃ b', Rel q' b' ∧ b'.Perm (l ++ b)
  | [], q, b, h, _ => ⟨q, rfl, b, h, by simp⟩
  | e :: l, q, b, h, hn => by
    have hn' := hn
    simp only [List.cons_append, List.map_cons, List.nodup_cons] at hn
    have he : e.1 ∉ b.map Prod.fst := fun hm => hn.1 (by rw [List.map_append]; exact List.mem_append_right _ hm)
    obtain ⟨out, q1, b1, r1, hd, h1⟩ := exec_spec h (.insert e.1 e.2) he
    obtain ⟨_, rfl⟩ := hd
    have r1' : insert (setPri q e.1 e.2) e.1 = .ok q1 := by
      simp only [POp.exec] at r1
      cases hx : insert (setPri q e.1 e.2) e.1 with
      | error f => rw [hx] at r1; simp at r1
      | ok qq => rw [hx] at r1; simp at r1; rw [r1.2]
    have hp : (l ++ (e.1, e.2) :: b).Perm (e :: (l ++ b)) := List.perm_middle
    obtain ⟨q2, r2, b2, h2, p2⟩ := fillWith_rel l q1 ((e.1, e.2) :: b) h1 (((hp.map Prod.fst).nodup_iff).2 hn')
    exact ⟨q2, by simp [fillWith, r1', r2], b2, h2, p2.trans hp⟩

theorem drain_sorted : ∀ (k : Nat) (q : Q P) (b : Bag P), Rel q b → b.length ≤ k →
    ∃ l, drain k q = .ok l ∧ l.Perm (b.map Prod.fst) ∧ ∃ l' : List (Node × P), l'.Perm b ∧ l'.map Prod.fst = l ∧ l'.Pairwise (fun e f => f.2 ≤ e.2)
  | 0, q, b, _, hk => by
    have : b = [] := by simpa using hk
    subst this; exact ⟨[], rfl, by simp, [], by simp, rfl, by simp⟩
  | k + 1, q, b, h, hk => by
    by_cases hb : b = []
    · subst hb
      obtain ⟨out, q', b', r, hd, h'⟩ := exec_spec h .pop trivial
      simp [POp.does] at hd
      obtain ⟨rfl, rfl⟩ := hd
      refine ⟨[], ?_, by simp, [], by simp, rfl, by simp⟩
      have r' : pop q = .ok (none, q') := r
      simp [drain, r']
    · obtain ⟨out, q', b', r, hd, h'⟩ := exec_spec h .pop trivial
      simp only [POp.does, if_neg hb] at hd
      obtain ⟨x, rfl, ⟨p, hxp, htop⟩, rfl⟩ := hd
      have r' : pop q = .ok (some x, q') := r
      have hbw : b.Perm ((x, p) :: b.without x) := by
        have hnd := h.nd
        have hbn : b.Nodup := List.Nodup.of_map _ hnd
        have hw : b.without x = b.erase (x, p) := by
          rw [hbn.erase_eq_filter, Bag.without]
          apply List.filter_congr
          intro e he
          by_cases hh : e = (x, p)
          · simp [hh]
          · have : e.1 ≠ x := fun h2 => hh (List.inj_on_of_nodup_map hnd he hxp h2)
            simp [hh, this]
        rw [hw]; exact List.perm_cons_erase hxp
      have hlen : (b.without x).length ≤ k := by have := hbw.length_eq; simp at this; omega
      obtain ⟨l, r2, p2, l', p3, e3, s3⟩ := drain_sorted k q' _ h' hlen
      refine ⟨x :: l, by simp [drain, r', r2], ?_, (x, p) :: l', ?_, by simp [e3], ?_⟩
      · exact (p2.cons x).trans (by simpa using (hbw.map Prod.fst).symm)
      · exact (p3.cons _).trans hbw.symm
      · refine List.pairwise_cons.2 ⟨fun e he => ?_, s3⟩
        have : e ∈ b := hbw.mem_iff.2 (List.mem_cons_of_mem _ (p3.mem_iff.1 he))
        exact htop e this

/-- C28.  Heap sort: insert any distinct nodes in any order into an empty queue, pop until it is empty: every node comes out once,
in non-increasing order of priority. -/
theorem C28_drain (n : Nat) (pri : Node → P) (pos : Node → Nat) (l : List (Node × P)) (hn : (l.map Prod.fst).Nodup) :
    ∃ q, fillWith (init n pri pos) l = .ok q ∧ ∃ out, drain l.length q = .ok out ∧
      ∃ l' : List (Node × P), l'.Perm l ∧ l'.map Prod.fst = out ∧ l'.Pairwise (fun e f => f.2 ≤ e.2) := by
  obtain ⟨q, r, b, h, p⟩ := fillWith_rel l (init n pri pos) [] ⟨init_inv n pri pos, fun e he => by simp at he⟩ (by simpa using hn)
  rw [List.append_nil] at p
  obtain ⟨out, r2, _, l', p3, e3, s3⟩ := drain_sorted l.length q b h (Nat.le_of_eq p.length_eq)
  exact ⟨q, r, out, r2, l', p3.trans p, e3, s3⟩

/-! Concrete case: growth from one slot, a tie, priorities raised and lowered, removal inside and of the last slot. -/

def demoPOps : List (POp Int) :=
  [.insert 10 5, .insert 11 7, .insert 12 7, .insert 13 1, .insert 14 9, .change 13 8, .change 14 (-3), .remove 11, .remove 14, .peek, .pop, .pop]

def outsOf : Q Int → List (POp Int) → Res (List (Option Node))
  | _, [] => .ok []
  | q, op :: ops => op.exec q >>= fun r => outsOf r.2 ops >>= fun l => .ok (r.1 :: l)

example : outsOf (init 0 (fun _ => 0) (fun _ => 0)) demoPOps =
    .ok [none, none, none, none, none, none, none, none, none, some 13, some 13, some 12] := by decide
example : (fillWith (init 0 (fun _ => 0) (fun _ => 0)) [(1, (4 : Int)), (2, 9), (3, -1), (4, 6), (5, 9), (6, 0)] >>= drain 6) =
    .ok [2, 5, 4, 1, 6, 3] := by decide

end Verif.Props
