import Verif.Proof.HashTableV1
import Verif.Props.Demo
/-!
# The first chained hash table

`Verif/Spec/HashTableV1.lean` states what a client does with the table and what it is to see: a set of objects, and registered pointers that follow their objects.
-/

namespace Verif.Props
open Verif Verif.Spec Verif.HashTableV1
set_option maxRecDepth 20000

/-- C108: whatever the hash function, a client that stores an id only once and no empty object sees the set of objects: no call fails, every lookup answers as the set does,
the count is right, a walk visits every object once, and every registered pointer still points to its object, wherever the table has moved it, as long as that object is there.
Missing: empty objects (`C108_zeroSize_fails_HashTableV1`) and pointers to deleted objects (`C108_deletedPointer_fails_HashTableV1`). -/
theorem C108_setOfObjects_HashTableV1_partial (H : ObjId → Nat) (pow : Nat) (cs : List BakedTable.Call) (h : BakedTable.AllAllowed {} cs) :
    ∃ t, BakedTable.execAll H (create pow) cs = .ok (BakedTable.answers {} cs, t) ∧
      t.n = (BakedTable.after {} cs).objs.length ∧
      ((visit t).map (fun e => (e.2.id, e.2.size))).Perm (BakedTable.after {} cs).objs ∧
      List.Forall₂ (fun p w => ∀ id, w = some id → ∃ a c, p = some a ∧ rd t a = .ok c ∧ c.id = id) t.ptrs (BakedTable.after {} cs).follow := by
  obtain ⟨t, h1, h2⟩ := execAll_inv cs _ _ (create_inv H pow) h
  refine ⟨t, h1, h2.n, h2.core.cells, h2.core.follow.imp (fun p w hh id hw => ?_)⟩
  obtain ⟨e, he, hp, hi⟩ := hh id hw
  exact ⟨e.1, e.2, hp, rd_of_mem h2.core.nodup he, hi⟩

/-- collisions, a growing table, a first object deleted before its successors, pointers to moved objects -/
def HashTableV1_calls : List BakedTable.Call :=
  [.insert ⟨1, 10, -2⟩, .watch 1, .insert ⟨3, 30, -2⟩, .watch 3, .insert ⟨5, 50, -2⟩, .watch 5, .insert ⟨2, 20, -2⟩, .insert ⟨7, 70, -2⟩, .watch 7, .find 7,
   .delete 1, .find 1, .find 3, .delete 5, .insert ⟨1, 11, -2⟩, .insert ⟨9, 90, -2⟩, .find 9, .delete 4]

instance (t : BakedTable.St) (c : BakedTable.Call) : Decidable (BakedTable.Allowed t c) := by
  cases c <;> (unfold BakedTable.Allowed; infer_instance)

instance BakedTable_decAll : (t : BakedTable.St) → (cs : List BakedTable.Call) → Decidable (BakedTable.AllAllowed t cs)
  | _, [] => isTrue trivial
  | t, c :: cs => by unfold BakedTable.AllAllowed; exact @instDecidableAnd _ _ _ (BakedTable_decAll _ cs)

example : BakedTable.AllAllowed {} HashTableV1_calls ∧
    (BakedTable.answers {} HashTableV1_calls).drop 10 = [some (1, 10), none, some (3, 30), some (5, 50), some (1, 11), some (9, 90), some (9, 90), none] ∧
    (BakedTable.after {} HashTableV1_calls).follow = [none, some 3, none, some 7] := by decide

example : (match BakedTable.execAll (fun x => x) (create 1) HashTableV1_calls with
    | .ok p => some (p.1, p.2.pow, (visit p.2).map (fun e => e.2.id))
    | .error _ => none) = some (BakedTable.answers {} HashTableV1_calls, 2, [1, 9, 2, 3, 7]) := by decide +kernel

/-- C108: in a table with objects the random object is one of them, whatever the random number: the search ends. -/
theorem C108_randomObject_HashTableV1 (H : ObjId → Nat) (pow : Nat) (cs : List BakedTable.Call) (h : BakedTable.AllAllowed {} cs) (out : List (Option (ObjId × Nat))) (t : T)
    (hr : BakedTable.execAll H (create pow) cs = .ok (out, t)) (hne : (BakedTable.after {} cs).objs ≠ []) (v : Nat) :
    ∃ a c, randObj t v = .ok a ∧ rd t a = .ok c ∧ (c.id, c.size) ∈ (BakedTable.after {} cs).objs := by
  obtain ⟨t', h1, h2⟩ := execAll_inv cs _ _ (create_inv H pow) h
  rw [hr] at h1
  injection h1 with h1
  injection h1 with _ h1
  subst h1
  have hv : visit t ≠ [] := by
    intro hz
    have := h2.core.cells.length_eq
    rw [hz] at this
    exact hne (List.length_eq_zero_iff.1 this.symm)
  obtain ⟨i, _, h3, h4⟩ := randObj_spec hv v
  exact ⟨_, _, h3, rd_of_mem h2.core.nodup h4, h2.core.cells.mem_iff.1 (List.mem_map.2 ⟨_, h4, rfl⟩)⟩

/-- C108 refuted for the random object: an object behind another one in its bucket is never chosen, by no random number; in an empty table the search never ends. -/
theorem C108_everyObjectChosen_fails_HashTableV1 :
    ∃ out t, BakedTable.execAll (fun x => x) (create 1) [.insert ⟨1, 10, -2⟩, .insert ⟨3, 30, -2⟩] = .ok (out, t) ∧
      (visit t).map (fun e => e.2.id) = [1, 3] ∧ (∀ v a c, randObj t v = .ok a → rd t a = .ok c → c.id ≠ 3) ∧ randObj (create 1) 0 = .error .diverge := by
  refine ⟨_, _, rfl, by decide, ?_, rfl⟩
  intro v a c h1 h2
  have hv : v &&& hashmask 1 = 0 ∨ v &&& hashmask 1 = 1 := by
    have := mask_lt v 1
    have hs : hashsize 1 = 2 := rfl
    omega
  have ha : a = .slot 0 1 := by
    unfold randObj at h1
    change randFrom _ 2 (v &&& hashmask 1) = _ at h1
    rcases hv with hv | hv <;> rw [hv] at h1 <;> (injection h1 with h1; exact h1.symm)
  subst ha
  injection h2 with h2
  subst h2
  decide

/-- C108 refuted for empty objects: an object whose size is 0, or 4 GiB, is counted but not found, and the next object of its bucket overwrites it. -/
theorem C108_zeroSize_fails_HashTableV1 : ∀ r ∈ [(⟨1, 0, -2⟩ : Req), ⟨1, 4294967296, -2⟩],
    find (fun x => x) (insert (fun x => x) (create 1) r).2 1 = none ∧ (insert (fun x => x) (create 1) r).2.n = 1 ∧
    (insert (fun x => x) (insert (fun x => x) (create 1) r).2 ⟨3, 30, -2⟩).2.n = 2 ∧
    (visit (insert (fun x => x) (insert (fun x => x) (create 1) r).2 ⟨3, 30, -2⟩).2).map (fun e => e.2.id) = [3] := by decide

/-- C108 refuted for pointers to deleted objects: a registered pointer to a deleted object becomes NULL, unless the object was the first of several in its bucket: then it points to another object. -/
theorem C108_deletedPointer_fails_HashTableV1 :
    (∃ out t, BakedTable.execAll (fun x => x) (create 1) [.insert ⟨1, 10, -2⟩, .watch 1, .delete 1] = .ok (out, t) ∧ t.ptrs = [none]) ∧
    ∃ out t a c, BakedTable.execAll (fun x => x) (create 1) [.insert ⟨1, 10, -2⟩, .watch 1, .insert ⟨3, 30, -2⟩, .delete 1] = .ok (out, t) ∧
      t.ptrs = [some a] ∧ rd t a = .ok c ∧ c.id = 3 := by
  refine ⟨⟨_, _, rfl, by decide⟩, _, _, _, _, rfl, rfl, rfl, by decide⟩

/-- C108 refuted for pointers that are not registered: after another object is deleted, the pointer that a lookup returned is dangling although its object is still in the table. -/
theorem C108_unregisteredPointer_fails_HashTableV1 :
    ∃ out t out' t' a, BakedTable.execAll (fun x => x) (create 1) [.insert ⟨1, 10, -2⟩, .insert ⟨3, 30, -2⟩] = .ok (out, t) ∧ find (fun x => x) t 3 = some a ∧
      BakedTable.execAll (fun x => x) t [.delete 1, .find 3] = .ok (out', t') ∧ out' = [some (1, 10), some (3, 30)] ∧ rd t' a = .error .useAfterFree := by
  refine ⟨_, _, _, _, _, rfl, rfl, rfl, by decide, by decide⟩

end Verif.Props
