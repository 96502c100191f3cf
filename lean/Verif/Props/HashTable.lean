import Verif.Proof.HashTable
/-! # C26: the hash table is a map, for every hash function and every sequence of calls -/

namespace Verif.Props
open Verif.HashTable Verif.Spec

/-- C26.  Start from an empty table of any power, with any hash function and any heap.  Whatever permitted calls are made, none faults or
loops, and every answer is the one of the map.  Afterwards every lookup agrees with the map, the counter is the number of objects,
and `foreach` visits every object present exactly once. -/
theorem C26_map (H : ObjId → Nat) (h : Heap) (pow : Nat) (ext : Bool) (ops : List HOp) (ha : HOp.allAllowed [] ops) :
    ∃ t, HOp.execAll H (create h pow ext) ops = .ok (HOp.answers [] ops, t) ∧
      (∀ id, find H t id = .ok ((ops.foldl HOp.effect []).get id)) ∧
      t.n = (ops.foldl HOp.effect []).length ∧
      ∃ l, visit t = .ok l ∧ l.Perm ((ops.foldl HOp.effect []).map Prod.snd) := by
  obtain ⟨t, es, r, hr⟩ := execAll_spec ops (create_rel H h pow ext) ha
  exact ⟨t, r, find_spec hr, hr.count, visit_spec hr⟩

/-- C26.  Growing the table, whenever it happens, loses nothing, duplicates nothing and changes no answer. -/
theorem C26_expand (H : ObjId → Nat) (h : Heap) (pow : Nat) (ext : Bool) (ops : List HOp) (ha : HOp.allAllowed [] ops)
    (t : T) (out) (hx : HOp.execAll H (create h pow ext) ops = .ok (out, t)) :
    ∃ t', expand H t = .ok t' ∧ hashsize t'.pow = 2 * hashsize t.pow ∧ t'.n = t.n ∧ (∀ id, find H t' id = find H t id) ∧
      ∃ l l', visit t = .ok l ∧ visit t' = .ok l' ∧ l'.Perm l := by
  obtain ⟨t1, es, r, hr⟩ := execAll_spec ops (create_rel H h pow ext) ha
  rw [hx] at r
  have e : t = t1 := (Prod.mk.inj (Except.ok.inj r)).2
  subst e
  obtain ⟨t', es', r', p', _, hr', _⟩ := expand_spec hr
  obtain ⟨l, hl, pl⟩ := visit_spec hr
  obtain ⟨l', hl', pl'⟩ := visit_spec hr'
  refine ⟨t', r', ?_, by rw [hr'.count, hr.count], fun id => by rw [find_spec hr', find_spec hr], l, l', hl, hl', pl'.trans pl.symm⟩
  rw [hashsize_eq, hashsize_eq, p', Nat.pow_succ, Nat.mul_comm]

/-- C26.  `try_delete` of a live object that is not in the table reports so and changes nothing. -/
theorem C26_tryDeleteAbsent (H : ObjId → Nat) (h : Heap) (pow : Nat) (ext : Bool) (ops : List HOp) (ha : HOp.allAllowed [] ops)
    (t : T) (out) (hx : HOp.execAll H (create h pow ext) ops = .ok (out, t)) (a : Addr) (c : Cell) (hc : t.h a = some c)
    (hm : a ∉ (ops.foldl HOp.effect []).map Prod.snd) : tryDelete H t a = .ok (false, t) := by
  obtain ⟨t1, es, r, hr⟩ := execAll_spec ops (create_rel H h pow ext) ha
  rw [hx] at r
  have e : t = t1 := (Prod.mk.inj (Except.ok.inj r)).2
  subst e
  exact tryDelete_absent hr hc hm

/-- C26.  The random object is an object of the table, for every stream of random numbers; and the loop ends as soon as the
stream hits the bucket of some present object. -/
theorem C26_rand (H : ObjId → Nat) (h : Heap) (pow : Nat) (ext : Bool) (ops : List HOp) (ha : HOp.allAllowed [] ops)
    (t : T) (out) (hx : HOp.execAll H (create h pow ext) ops = .ok (out, t)) (rands : List Nat) :
    (∀ a, randObj t rands = .ok a → a ∈ (ops.foldl HOp.effect []).map Prod.snd) ∧
    (∀ id ∈ (ops.foldl HOp.effect []).map Prod.fst, (∃ v ∈ rands, v % hashsize t.pow = H id % hashsize t.pow) →
      ∃ a, randObj t rands = .ok a) := by
  obtain ⟨t1, es, r, hr⟩ := execAll_spec ops (create_rel H h pow ext) ha
  rw [hx] at r
  have e : t = t1 := (Prod.mk.inj (Except.ok.inj r)).2
  subst e
  refine ⟨randObj_mem hr rands, fun id hid hv => ?_⟩
  obtain ⟨x, hx, rfl⟩ := List.mem_map.1 hid
  rw [hashsize_eq] at hv
  exact randObj_stops hr hx rands hv

/-- On an empty table the random choice never ends, whatever the random numbers. -/
theorem C26_rand_empty (h : Heap) (pow : Nat) (ext : Bool) (rands : List Nat) : randObj (create h pow ext) rands = .error .diverge := by
  induction rands with
  | nil => rfl
  | cons v vs ih => simpa [randObj, create] using ih

/-! Concrete case: two hash values for everything (so that chains form), two buckets at first, growth after the third insertion,
deletions at the front and inside of a chain, in all three ways. -/

def demoHash : ObjId → Nat := fun id => id % 2
def demoHOps : List HOp :=
  [.insert 100 1, .insert 101 3, .insert 102 5, .insert 103 4, .insert 104 7, .find 3, .delete 101, .deleteId 1, .deleteId 9, .find 1,
   .tryDelete 104, .insert 101 11, .find 11]

example : HOp.allAllowed [] demoHOps := by simp [demoHOps, HOp.allAllowed, HOp.allowed, HOp.effect]
example : (HOp.execAll demoHash (create (fun _ => none) 1 false) demoHOps).map (fun p => (p.1, p.2.n, p.2.pow)) =
    .ok ([some 100, some 101, some 102, some 103, some 104, some 101, none, some 1, none, none, some 1, some 101, some 101], 3, 2) := by
  decide
example : demoHOps.foldl HOp.effect [] = [(11, 101), (4, 103), (5, 102)] := by decide

/-! ## Objects owned by the caller

With `external_obj` set, `insert_obj` takes an object the caller allocated, and deletion leaves it allocated. -/

/-- C26.  `insert_obj` is right when the object's `hash_next` is NULL, as it is in a new object. -/
theorem C26_insertObj_partial (H : ObjId → Nat) (h : Heap) (pow : Nat) (ops : List HOp) (ha : HOp.allAllowed [] ops)
    (t : T) (out) (hx : HOp.execAll H (create h pow true) ops = .ok (out, t)) (a : Addr) (id : ObjId)
    (hid : id ∉ (ops.foldl HOp.effect []).map Prod.fst) (hm : a ∉ (ops.foldl HOp.effect []).map Prod.snd)
    (hc : t.h a = some ⟨id, none⟩) :
    ∃ t', insertObj H t a = .ok t' ∧ (∀ i, find H t' i = .ok (Map.get ((id, a) :: ops.foldl HOp.effect []) i)) ∧ t'.n = t.n + 1 := by
  obtain ⟨t1, es, r, hr⟩ := execAll_spec ops (create_rel H h pow true) ha
  rw [hx] at r
  have e : t = t1 := (Prod.mk.inj (Except.ok.inj r)).2
  subst e
  obtain ⟨t', es', r', _, hr', _⟩ := insertObj_spec hr hid hm hc
  exact ⟨t', r', find_spec hr', by rw [hr'.count, hr.count]; simp⟩

/-- C26 fails for an object that was in the table before: deletion leaves its `hash_next`, and insertion into an empty bucket
does not clear it.  Here object 1 stays in the other bucket, object 2 is deleted, then object 0 is inserted again, and object 2 is found. -/
theorem C26_insertObj_fails :
    let h : Heap := fun a => if a = 10 then some ⟨0, none⟩ else if a = 20 then some ⟨2, none⟩ else if a = 30 then some ⟨1, none⟩ else none
    (do let t ← insertObj id (create h 1 true) 30
        let t ← insertObj id t 20
        let t ← insertObj id t 10
        let t ← delete id t 10
        let t ← delete id t 20
        let p ← find id t 2
        let t ← insertObj id t 10
        let q ← find id t 2
        pure (p, q) : Res (Ptr × Ptr)) = .ok (none, some 20) := by
  decide

end Verif.Props
