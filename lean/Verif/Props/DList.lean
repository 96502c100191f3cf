import Verif.Proof.DList
import Verif.Algo.Queue
/-!
# C27: the intrusive doubly linked list
-/

namespace Verif.Props
open Verif Verif.Spec Verif.DList

/-- C27: on one heap that carries any number of disjoint well-formed lists, every sequence of permitted operations of the pointer
code runs without fault, and afterwards the lists are well-formed and are those obtained by the operations on sequences.  (An
operation on one list leaves all others as they are: `LOp.effect` changes one list only.) -/
theorem C27_listOps (m : Lists) (q : Nat → List Addr) (hm : AreLists m q) (ops : List LOp)
    (ha : LOp.allAllowed (fun x => (m.h x).isSome) q ops) :
    ∃ m', m.run ops = .ok m' ∧ AreLists m' (ops.foldl LOp.effect q) := by
  obtain ⟨m', h1, h2, _⟩ := run_spec hm ha
  exact ⟨m', h1, h2⟩

/-- C27: one operation touches no object that is neither on a list before nor after it, and allocates and frees nothing. -/
theorem C27_frame (m : Lists) (q : Nat → List Addr) (hm : AreLists m q) (op : LOp)
    (ha : op.allowed (fun x => (m.h x).isSome) q) :
    ∃ m', m.step op = .ok m' ∧ (∀ y, (m'.h y).isSome = (m.h y).isSome) ∧
      ∀ y, (∀ k, y ∉ q k) → (∀ k, y ∉ op.effect q k) → m'.h y = m.h y := by
  obtain ⟨m', h1, _, h3, h4⟩ := step_spec hm op ha
  exact ⟨m', h1, h3, h4⟩

/-- C27: following `next` from the head visits the list, following `prev` from the tail visits its reverse. -/
theorem C27_traversal (s : St) (q : List Addr) (h : IsList s q) (n : Nat) (hn : q.length ≤ n) :
    forward s.h n s.hd = q ∧ backward s.h n s.tl = q.reverse := by
  rw [h.head, h.tail]
  exact ⟨forward_seg (seg_of_linked h.linked) hn, backward_seg n h.linked hn⟩

/-- C27: the list operations used in the models of the eviction algorithms (`Verif/Algo/Queue.lean`) are those of the pointer code:
whenever the model operation succeeds, so does the pointer code, with the same list. -/
theorem C27_queueModel (s : St) (q q' : List Addr) (x : Addr) (h : IsList s q) (hal : (s.h x).isSome) :
    (qRemove q x = .ok q' → ∃ s', DList.remove s x = .ok s' ∧ IsList s' q') ∧
    (qMoveToHead q x = .ok q' → ∃ s', moveToHead s x = .ok s' ∧ IsList s' q') ∧
    (qMoveToTail q x = .ok q' → ∃ s', moveToTail s x = .ok s' ∧ IsList s' q') ∧
    (qPrepend q x = .ok q' → ∃ s', prepend s x = .ok s' ∧ IsList s' q') ∧
    (qAppend q x = .ok q' → ∃ s', append s x = .ok s' ∧ IsList s' q') := by
  refine ⟨?_, ?_, ?_, ?_, ?_⟩
  · intro e
    simp only [qRemove] at e
    split at e <;> cases e
    rename_i hx
    obtain ⟨s', h1, h2, _⟩ := remove_spec h hx
    exact ⟨s', h1, h2.list⟩
  · intro e
    simp only [qMoveToHead] at e
    split at e <;> cases e
    rename_i hx
    obtain ⟨s', h1, h2⟩ := moveToHead_spec h hx
    exact ⟨s', h1, h2.list⟩
  · intro e
    simp only [qMoveToTail] at e
    split at e <;> cases e
    rename_i hx
    obtain ⟨s', h1, h2⟩ := moveToTail_spec h hx
    exact ⟨s', h1, h2.list⟩
  · intro e
    simp only [qPrepend] at e
    split at e <;> cases e
    rename_i hx
    obtain ⟨s', h1, h2⟩ := prepend_spec h hx hal
    exact ⟨s', h1, h2.list⟩
  · intro e
    simp only [qAppend] at e
    split at e <;> cases e
    rename_i hx
    obtain ⟨s', h1, h2⟩ := append_spec h hx hal
    exact ⟨s', h1, h2.list⟩

/-- C27: the hand-written unlinking of the tail in `LRU_evict` and `FIFO_evict` (`qDropTail` in the models). -/
theorem C27_dropTail (s : St) (q : List Addr) (h : IsList s q) (hne : q ≠ []) :
    ∃ s', dropTail s = .ok s' ∧ IsList s' (qDropTail q) := by
  obtain ⟨s', _, h1, _, h2⟩ := dropTail_spec h hne
  exact ⟨s', h1, h2.list⟩

/-- C27: the hand-written unlinking of the head in `MRU_evict` works if at least two objects are on the list … -/
theorem C27_dropHead (s : St) (x y : Addr) (q : List Addr) (h : IsList s (x :: y :: q)) :
    ∃ s', dropHead s = .ok s' ∧ IsList s' (y :: q) := by
  obtain ⟨s', h1, h2⟩ := dropHead_spec h
  exact ⟨s', h1, h2.list⟩

/-- … and dereferences NULL if there is only one. -/
theorem C27_dropHead_fails (s : St) (x : Addr) (h : IsList s [x]) : dropHead s = .error .nullDeref := by
  have h1 := h.head
  have h2 := h.linked [] x [] rfl
  simp at h1 h2
  simp [dropHead, rd, h1, h2, setPrev]

/-! ### The hypotheses are met: two lists [1, 2, 3] and [7], and a fresh object 9. -/

def demoHeap : Heap := fun x =>
  if x = 1 then some ⟨none, some 2⟩ else if x = 2 then some ⟨some 1, some 3⟩ else if x = 3 then some ⟨some 2, none⟩
  else if x = 7 then some ⟨none, none⟩ else if x = 9 then some ⟨some 1, some 1⟩ else none

def demoLists : Lists := ⟨demoHeap, fun l => if l = 0 then some 1 else if l = 1 then some 7 else none,
  fun l => if l = 0 then some 3 else if l = 1 then some 7 else none⟩

def demoQs : Nat → List Addr := fun l => if l = 0 then [1, 2, 3] else if l = 1 then [7] else []

theorem demoLists_are : AreLists demoLists demoQs := by
  constructor
  · intro l
    by_cases h0 : l = 0
    · subst h0
      exact isList_iff.2 ⟨by decide, rfl, rfl, by simp [Seg, demoLists, demoQs, demoHeap, Lists.get]⟩
    · by_cases h1 : l = 1
      · subst h1
        exact isList_iff.2 ⟨by decide, rfl, rfl, by simp [Seg, demoLists, demoQs, demoHeap, Lists.get]⟩
      · refine isList_iff.2 ⟨?_, ?_, ?_, ?_⟩ <;> simp [demoQs, demoLists, h0, h1, Lists.get, Seg]
  · intro k l x hk hl
    simp only [demoQs] at hk hl
    split at hk <;> split at hl <;> simp_all <;> split at hk <;> simp_all <;> split at hl <;> simp_all

/-- move 3 to the front of list 0, take 1 out of it, put it behind 7, put 9 in front of list 0 -/
example : LOp.allAllowed (fun x => (demoLists.h x).isSome) demoQs
    [.toHead 0 3, .remove 0 1, .append 1 1, .prepend 0 9, .toTail 0 9, .dropTail 0] := by
  simp only [LOp.allAllowed, LOp.allowed, LOp.effect, demoQs, demoLists]
  refine ⟨by decide, by decide, ⟨by decide, ?_⟩, ⟨by decide, ?_⟩, by decide, by decide, trivial⟩
  · intro k
    by_cases h0 : k = 0
    · subst h0; decide
    · by_cases h1 : k = 1
      · subst h1; decide
      · simp [h0, h1]
  · intro k
    by_cases h0 : k = 0
    · subst h0; decide
    · by_cases h1 : k = 1
      · subst h1; decide
      · simp [h0, h1]

end Verif.Props
