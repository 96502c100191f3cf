import Verif.Spec.Dated
import Verif.Proof.View
import Verif.Proof.Machine
/-!
# Objects with their next request times, as entries of the reference machines
-/

namespace Verif
open Spec Spec.Dated

/-- An object as an entry of the specification. -/
def entOf {μ : Type} (o : Obj μ) : Entry := ⟨o.id, o.size, o.miscNext⟩

section
variable {μ : Type} {b b' : Base μ} {q : List ObjId}

theorem contents_view (b : Base μ) (q : List ObjId) : contents (viewOf entOf b q) = orderOf b q := by
  unfold contents
  rw [viewOf_map]
  unfold viewOf orderOf Base.szOf
  apply List.filterMap_congr
  intro id _
  cases h : b.lookup id with
  | none => rfl
  | some o => simp [entOf, (lookup_some_mem h).2]

theorem ids_view (hq : ∀ id ∈ q, ∃ o, b.lookup id = some o) : (viewOf entOf b q).map Entry.id = q := by
  have := orderOf_ids hq
  rw [← contents_view] at this
  simpa [contents, Contents.ids, Function.comp_def] using this

theorem touched_view (r : Req) : viewOf entOf (b.modify r.id (touch r)) q = touched r (viewOf entOf b q) :=
  viewOf_modify r.id (touch r) (fun _ => rfl) _ (fun o => by by_cases h : o.id = r.id <;> simp [entOf, h, touch])

theorem toNewest_view {id : ObjId} (hn : q.Nodup) (hm : id ∈ q) :
    viewOf entOf b (id :: q.erase id).reverse = toNewest id (viewOf entOf b q.reverse) := by
  unfold toNewest
  rw [← viewOf_filter (f := entOf) (fun x => decide (x ≠ id)) (fun x => decide (x.id ≠ id)) (fun _ _ => rfl),
    ← viewOf_filter (f := entOf) (fun x => decide (x = id)) (fun x => decide (x.id = id)) (fun _ _ => rfl), ← viewOf_append,
    List.filter_reverse, List.filter_reverse, filter_id_eq hn hm, ← erase_eq_filter hn]
  simp

theorem filterOut_view {id : ObjId} (hn : q.Nodup) (ht : b'.tbl = b.tbl.eraseP (fun o => o.id == id)) :
    viewOf entOf b' (q.erase id).reverse = (viewOf entOf b q.reverse).filter (fun x => x.id ≠ id) := by
  rw [viewOf_erase ht (by simp [hn.mem_erase_iff]),
    ← viewOf_filter (f := entOf) (fun x => decide (x ≠ id)) (fun x => decide (x.id ≠ id)) (fun _ _ => rfl), List.filter_reverse,
    ← erase_eq_filter hn]

theorem insert_view (z : μ) (r : Req) (hq : r.id ∉ q) :
    viewOf entOf (b.insertBase z r) (r.id :: q).reverse = viewOf entOf b q.reverse ++ [Entry.ofReq r] := by
  rw [List.reverse_cons, viewOf_append, viewOf_insert z r (by simpa using hq)]
  congr 1
  simp [viewOf, lookup_insertBase, entOf, Obj.ofReq, Entry.ofReq]

theorem view_tbl (h : b'.tbl = b.tbl) : viewOf entOf b' q = viewOf entOf b q :=
  viewOf_congr (fun id _ => by simp only [Base.lookup, h])

end

section
variable {μ : Type} {cs md : Nat} {s : QState μ}

theorem QInv.holds_view (h : QInv cs md s) (id : ObjId) : Dated.holds (viewOf entOf s.base s.q.reverse) id = (s.base.lookup id).isSome := by
  unfold Dated.holds
  rw [ids_view (fun i hi => (h.mem_iff i).1 (by simpa using hi))]
  cases hl : s.base.lookup id with
  | none => simpa using h.notMem_of_lookup hl
  | some o => simpa using h.mem_of_lookup hl

theorem QInv.bytes_view (h : QInv cs md s) : (bytes md (contents (viewOf entOf s.base s.q.reverse)) : Int) = s.base.occ := by
  rw [contents_view, bytes_eq_charge, h.base.inv.occ_eq, h.base.md]
  have hp := (orderOf_perm (b := s.base) (List.reverse_perm s.q)).trans (orderOf_ids_perm_cached h.base.inv.nodup h.q)
  rw [charge_perm hp]

theorem QInv.perm_view (h : QInv cs md s) : (contents (viewOf entOf s.base s.q.reverse)).Perm s.base.cached := by
  rw [contents_view]
  exact (orderOf_perm (b := s.base) (List.reverse_perm s.q)).trans (orderOf_ids_perm_cached h.base.inv.nodup h.q)

theorem QInv.len_view (h : QInv cs md s) : (viewOf entOf s.base s.q.reverse).length = s.q.length := by
  have := ids_view (b := s.base) (q := s.q.reverse) (fun i hi => (h.mem_iff i).1 (by simpa using hi))
  have := congrArg List.length this
  simpa using this

end

/-! ### Sweeps of the reference queue -/

namespace Spec.Dated

theorem bytes_cons (md : Nat) (x : Entry) (l : List Entry) : bytes md (contents (x :: l)) = x.size + md + bytes md (contents l) := by
  simp [bytes, contents]

theorem bytes_append (md : Nat) (l l' : List Entry) : bytes md (contents (l ++ l')) = bytes md (contents l) + bytes md (contents l') := by
  simp [bytes, contents]

theorem bytes_filter (md : Nat) (p : Entry → Bool) (l : List Entry) : bytes md (contents (l.filter p)) ≤ bytes md (contents l) := by
  induction l with
  | nil => simp
  | cons x l ih =>
    rw [List.filter_cons]
    split
    · rw [bytes_cons, bytes_cons]; omega
    · rw [bytes_cons]; omega

theorem sweep_succ (due : Entry → Bool) (room : List Entry → Bool) (n : Nat) (l : List Entry) :
    sweep due room (n + 1) l = if room l then some l else sweep due room n (pass due l) := rfl

theorem bytes_pass (md : Nat) (due : Entry → Bool) (l : List Entry) :
    bytes md (contents ((pass due l).filter due)) = bytes md (contents (l.filter due)) := by
  cases l with
  | nil => rfl
  | cons x l =>
    unfold pass
    by_cases h : due x = true
    · simp only [h, if_true, List.filter_append, bytes_append, List.filter_cons_of_pos h, bytes_cons, List.filter_nil]
      simp [bytes, contents]; omega
    · simp only [if_neg h, List.filter_cons_of_neg h]

/-- If the due objects alone leave no room, no number of evictions makes room. -/
theorem sweep_forever (due : Entry → Bool) (md k C : Nat) (n : Nat) (l : List Entry) (h : ¬bytes md (contents (l.filter due)) + k + md ≤ C) :
    sweep due (fun l => decide (bytes md (contents l) + k + md ≤ C)) n l = none := by
  have hr : ∀ l, ¬bytes md (contents (l.filter due)) + k + md ≤ C → decide (bytes md (contents l) + k + md ≤ C) = false := by
    intro l h
    have := bytes_filter md due l
    rw [decide_eq_false_iff_not]
    omega
  induction n generalizing l with
  | zero => simp [sweep, hr l h]
  | succ n ih =>
    rw [sweep_succ, hr l h]
    exact ih _ (by rw [bytes_pass]; exact h)

/-- If they do leave room, looking at every object once is enough. -/
theorem sweep_enough (due : Entry → Bool) (md k C : Nat) (a c : List Entry) (hc : ∀ x ∈ c, due x = true)
    (h : bytes md (contents ((a ++ c).filter due)) + k + md ≤ C) :
    ∃ l', sweep due (fun l => decide (bytes md (contents l) + k + md ≤ C)) a.length (a ++ c) = some l' := by
  induction a generalizing c with
  | nil =>
    have : c.filter due = c := List.filter_eq_self.2 hc
    simp only [List.nil_append, this] at h
    exact ⟨c, by simp [sweep, h]⟩
  | cons x a ih =>
    rw [List.length_cons, sweep_succ]
    split
    · exact ⟨_, rfl⟩
    · rw [← bytes_pass] at h
      by_cases hx : due x = true
      · have e : pass due (x :: a ++ c) = a ++ (c ++ [x]) := by simp [pass, hx]
        rw [e] at h ⊢
        exact ih _ (by intro y hy; rcases List.mem_append.1 hy with hy | hy; exact hc y hy; simp at hy; rw [hy]; exact hx) h
      · have e : pass due (x :: a ++ c) = a ++ c := by simp [pass, hx]
        rw [e] at h ⊢
        exact ih _ hc h

end Spec.Dated

end Verif
