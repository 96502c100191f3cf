import Verif.Proof.View
import Verif.Proof.SingleBase
/-!
# Several lists of objects in one hash table

Algorithms that keep several linked lists and find an object's list in the object's metadata.
-/

namespace Verif.Lists
open Verif Spec

variable {μ κ : Type}

/-- List `k` replaced. -/
def put [DecidableEq κ] (a : κ → Contents) (k : κ) (c : Contents) : κ → Contents := fun j => if j = k then c else a j

def without (id : ObjId) (c : Contents) : Contents := c.filter (fun x => x.1 ≠ id)

/-- The hash table of `b` holds exactly the objects on the lists `a`; `tag` names the list. -/
structure Rep (tag : μ → κ) (a : κ → Contents) (b : Base μ) : Prop where
  nodup : (b.tbl.map (·.id)).Nodup
  mem : ∀ k x, x ∈ a k ↔ ∃ o, b.lookup x.1 = some o ∧ o.size = x.2 ∧ tag o.mt = k
  nd : ∀ k, (a k).ids.Nodup

theorem put_self [DecidableEq κ] (a : κ → Contents) (k : κ) (c : Contents) : put a k c k = c := by simp [put]
theorem put_ne [DecidableEq κ] (a : κ → Contents) {k j : κ} (h : j ≠ k) (c : Contents) : put a k c j = a j := by simp [put, h]
theorem put_put [DecidableEq κ] (a : κ → Contents) (k : κ) (c d : Contents) : put (put a k c) k d = put a k d := by
  funext j; by_cases e : j = k <;> simp [put, e]

theorem without_ids (id : ObjId) (c : Contents) (hn : c.ids.Nodup) : (without id c).ids = c.ids.erase id := by
  rw [erase_eq_filter hn]
  simp only [without, Contents.ids, List.filter_map]
  rfl

theorem without_perm {c : Contents} {x : ObjId × Nat} (hn : c.ids.Nodup) (hx : x ∈ c) : c.Perm (x :: without x.1 c) :=
  (List.perm_cons_erase hx).trans ((filter_cons_self hn (List.perm_cons_erase hx)).cons _)

theorem without_charge {md : Nat} {c : Contents} {x : ObjId × Nat} (hn : c.ids.Nodup) (hx : x ∈ c) :
    charge md c = charge md (without x.1 c) + (x.2 + md) := by
  rw [charge_perm (without_perm hn hx)]; simp only [charge]; omega

theorem without_last {c : Contents} {x : ObjId × Nat} (hn : (c ++ [x]).ids.Nodup) : without x.1 (c ++ [x]) = c := by
  simp only [Contents.ids, List.map_append, List.map_cons, List.map_nil] at hn
  have h1 := (List.nodup_append.1 hn).2.2
  simp only [without, List.filter_append]
  rw [List.filter_eq_self.2, List.filter_cons_of_neg (by simp)]
  · simp
  · intro y hy
    have := h1 y.1 (List.mem_map_of_mem hy) x.1 (by simp)
    simpa using this

theorem last_of_pos {md : Nat} {c : Contents} (h : 0 < charge md c) : ∃ d x, c = d ++ [x] := by
  rcases List.eq_nil_or_concat c with rfl | ⟨d, x, rfl⟩
  · simp [charge] at h
  · exact ⟨d, x, by simp⟩

theorem lookup_del {b : Base μ} (hn : (b.tbl.map (·.id)).Nodup) (id y : ObjId) :
    (b.del id).lookup y = if y = id then none else b.lookup y := by
  by_cases e : y = id
  · subst e
    rw [if_pos rfl, lookup_none_iff]
    intro o ho hid
    simp only [Base.del] at ho
    cases hl : b.lookup y with
    | none =>
      exact lookup_none_iff.1 hl o (List.mem_of_mem_eraseP ho) hid
    | some o' =>
      obtain ⟨h1, h2⟩ := lookup_some_mem hl
      have hp := eraseP_split (id := y) hn h1 h2
      have := (hp.map (·.id)).nodup_iff.1 hn
      simp only [List.map_cons, List.nodup_cons] at this
      apply this.1
      exact List.mem_map.2 ⟨o, ho, hid.trans h2.symm⟩
  · rw [if_neg e]; exact lookup_eraseP_ne rfl e

section
variable {tag : μ → κ} {a : κ → Contents} {b : Base μ}

namespace Rep

theorem lookup (h : Rep tag a b) {k : κ} {x : ObjId × Nat} (hx : x ∈ a k) :
    ∃ o, b.lookup x.1 = some o ∧ o.size = x.2 ∧ tag o.mt = k := (h.mem k x).1 hx

theorem mem_of (h : Rep tag a b) {id : ObjId} {o : Obj μ} (ho : b.lookup id = some o) : (id, o.size) ∈ a (tag o.mt) :=
  (h.mem _ _).2 ⟨o, ho, rfl, rfl⟩

theorem unique (h : Rep tag a b) {j k : κ} {x y : ObjId × Nat} (hx : x ∈ a j) (hy : y ∈ a k) (e : x.1 = y.1) : j = k ∧ x = y := by
  obtain ⟨o, h1, h2, h3⟩ := h.lookup hx
  obtain ⟨o', k1, k2, k3⟩ := h.lookup hy
  rw [← e, h1] at k1
  cases k1
  exact ⟨by rw [← h3, ← k3], Prod.ext e (by rw [← h2, ← k2])⟩

theorem notMem (h : Rep tag a b) {id : ObjId} (hn : b.lookup id = none) (k : κ) : id ∉ (a k).ids := by
  intro hm
  obtain ⟨x, hx, rfl⟩ := List.mem_map.1 hm
  obtain ⟨o, h1, _⟩ := h.lookup hx
  rw [hn] at h1; cases h1

theorem lookup_none (h : Rep tag a b) {id : ObjId} (hn : ∀ k, id ∉ (a k).ids) : b.lookup id = none := by
  cases e : b.lookup id with
  | none => rfl
  | some o => exact absurd (List.mem_map_of_mem (h.mem_of e)) (hn _)

/-- Only the lookups matter. -/
theorem congr {b' : Base μ} (h : Rep tag a b) (ht : b'.tbl = b.tbl) : Rep tag a b' := by
  refine ⟨by rw [ht]; exact h.nodup, fun k x => ?_, h.nd⟩
  rw [h.mem]; simp only [Base.lookup, ht]

variable [DecidableEq κ]

theorem mem_without (h : Rep tag a b) {x : ObjId × Nat} {k : κ} (hx : x ∈ a k) (i : κ) (y : ObjId × Nat) :
    y ∈ put a k (without x.1 (a k)) i ↔ y ∈ a i ∧ y.1 ≠ x.1 := by
  by_cases e : i = k
  · subst e; rw [put_self]; simp [without]
  · rw [put_ne _ e]
    exact ⟨fun hy => ⟨hy, fun hxy => e (h.unique hy hx hxy).1⟩, And.left⟩

theorem nd_without (h : Rep tag a b) (x : ObjId) (k i : κ) : (put a k (without x (a k)) i).ids.Nodup := by
  by_cases e : i = k
  · subst e; rw [put_self, without_ids _ _ (h.nd _)]; exact (h.nd _).erase _
  · rw [put_ne _ e]; exact h.nd i

/-- Deleting an object. -/
theorem del {b' : Base μ} (h : Rep tag a b) {x : ObjId × Nat} {k : κ} (hx : x ∈ a k) (ht : b'.tbl = (b.del x.1).tbl) :
    Rep tag (put a k (without x.1 (a k))) b' := by
  refine congr (b := b.del x.1) ?_ ht
  refine ⟨?_, fun i y => ?_, h.nd_without x.1 k⟩
  · exact h.nodup.sublist ((List.eraseP_sublist).map _)
  · rw [h.mem_without hx, h.mem, lookup_del h.nodup]
    by_cases e : y.1 = x.1
    · simp [e]
    · simp [e]

/-- Moving an object to a list, at any place. -/
theorem move (h : Rep tag a b) {x : ObjId × Nat} {k j : κ} (hx : x ∈ a k) {b' : Base μ} (f : Obj μ → Obj μ) (hid : ∀ o, (f o).id = o.id)
    (hsz : ∀ o, (f o).size = o.size) (htag : ∀ o, b.lookup x.1 = some o → tag (f o).mt = j) (ht : b'.tbl = (b.modify x.1 f).tbl) {l : Contents}
    (hl : l.Perm (x :: put a k (without x.1 (a k)) j)) : Rep tag (put (put a k (without x.1 (a k))) j l) b' := by
  refine congr (b := b.modify x.1 f) ?_ ht
  obtain ⟨o, ho, hos, hot⟩ := h.lookup hx
  have hlk : ∀ y, (b.modify x.1 f).lookup y = if y = x.1 then some (f o) else b.lookup y := by
    intro y
    by_cases e : y = x.1
    · rw [if_pos e, e, lookup_modify_self hid ho]
    · rw [if_neg e, lookup_modify_ne hid e]
  refine ⟨?_, fun i y => ?_, fun i => ?_⟩
  · rw [Base.ids_modify _ _ _ hid]; exact h.nodup
  · rw [hlk]
    have hrest : ∀ i, y ∈ put a k (without x.1 (a k)) i ↔ (∃ o', b.lookup y.1 = some o' ∧ o'.size = y.2 ∧ tag o'.mt = i) ∧ y.1 ≠ x.1 := by
      intro i; rw [h.mem_without hx, h.mem]
    by_cases e : y.1 = x.1
    · rw [if_pos e]
      have hno : ∀ i, y ∉ put a k (without x.1 (a k)) i := fun i hi => ((hrest i).1 hi).2 e
      constructor
      · intro hy
        by_cases ei : i = j
        · subst ei
          rw [put_self] at hy
          rcases List.mem_cons.1 (hl.subset hy) with rfl | hy
          · exact ⟨f o, rfl, by rw [hsz, hos], htag o ho⟩
          · exact absurd hy (hno _)
        · rw [put_ne _ ei] at hy; exact absurd hy (hno _)
      · rintro ⟨o', h1, h2, h3⟩
        cases h1
        have ei : i = j := by rw [← h3, htag o ho]
        subst ei
        rw [put_self]
        have : y = x := Prod.ext e (by rw [← h2, hsz, hos])
        rw [this]; exact hl.symm.subset List.mem_cons_self
    · rw [if_neg e]
      have : y ∈ put (put a k (without x.1 (a k))) j l i ↔ y ∈ put a k (without x.1 (a k)) i := by
        by_cases ei : i = j
        · subst ei
          rw [put_self]
          constructor
          · intro hy
            rcases List.mem_cons.1 (hl.subset hy) with rfl | hy
            · exact absurd rfl e
            · exact hy
          · intro hy; exact hl.symm.subset (List.mem_cons_of_mem _ hy)
        · rw [put_ne _ ei]
      rw [this, hrest]
      simp [e]
  · by_cases ei : i = j
    · subst ei
      rw [put_self]
      have h1 : l.ids.Perm (Contents.ids (x :: put a k (without x.1 (a k)) i)) := hl.map _
      rw [h1.nodup_iff]
      simp only [Contents.ids, List.map_cons, List.nodup_cons]
      refine ⟨?_, h.nd_without x.1 k i⟩
      intro hm
      obtain ⟨y, hy, hye⟩ := List.mem_map.1 hm
      exact ((h.mem_without hx i y).1 hy).2 hye
    · rw [put_ne _ ei]; exact h.nd_without x.1 k i

/-- Rewriting an object without moving it. -/
theorem modify (h : Rep tag a b) (id : ObjId) (f : Obj μ → Obj μ) (hid : ∀ o, (f o).id = o.id) (hsz : ∀ o, (f o).size = o.size)
    (htag : ∀ o, tag (f o).mt = tag o.mt) {b' : Base μ} (ht : b'.tbl = (b.modify id f).tbl) : Rep tag a b' := by
  refine congr (b := b.modify id f) ?_ ht
  refine ⟨by rw [Base.ids_modify _ _ _ hid]; exact h.nodup, fun k x => ?_, h.nd⟩
  rw [h.mem, lookup_modify _ _ _ _ hid]
  cases e : b.lookup x.1 with
  | none => simp
  | some o => by_cases e' : o.id = id <;> simp [e', hsz, htag]

/-- Adding a new object at the head of a list. -/
theorem insert (h : Rep tag a b) (z : μ) (r : Req) (hn : b.lookup r.id = none) {b' : Base μ} (ht : b'.tbl = (b.insertBase z r).tbl) {l : Contents}
    (hl : l.Perm ((r.id, r.size % u32) :: a (tag z))) : Rep tag (put a (tag z) l) b' := by
  refine congr (b := b.insertBase z r) ?_ ht
  have hno := h.notMem hn
  refine ⟨?_, fun i y => ?_, fun i => ?_⟩
  · simp only [Base.insertBase, List.map_cons, List.nodup_cons]
    refine ⟨?_, h.nodup⟩
    rw [mem_ids_iff_exists]
    rintro ⟨o, ho⟩
    simp only [Obj.ofReq] at ho
    rw [hn] at ho; cases ho
  · rw [lookup_insertBase]
    by_cases e : y.1 = r.id
    · rw [if_pos e]
      have hnoy : ∀ i, y ∉ a i := fun i hi => hno i (e ▸ List.mem_map_of_mem hi)
      constructor
      · intro hy
        by_cases ei : i = tag z
        · subst ei
          rw [put_self] at hy
          rcases List.mem_cons.1 (hl.subset hy) with rfl | hy
          · exact ⟨_, rfl, rfl, rfl⟩
          · exact absurd hy (hnoy _)
        · rw [put_ne _ ei] at hy; exact absurd hy (hnoy _)
      · rintro ⟨o', h1, h2, h3⟩
        cases h1
        have ei : i = tag z := h3.symm
        subst ei
        rw [put_self]
        have : y = (r.id, r.size % u32) := Prod.ext e h2.symm
        rw [this]; exact hl.symm.subset List.mem_cons_self
    · rw [if_neg e, ← h.mem]
      by_cases ei : i = tag z
      · subst ei
        rw [put_self]
        constructor
        · intro hy
          rcases List.mem_cons.1 (hl.subset hy) with rfl | hy
          · exact absurd rfl e
          · exact hy
        · intro hy; exact hl.symm.subset (List.mem_cons_of_mem _ hy)
      · rw [put_ne _ ei]
  · by_cases ei : i = tag z
    · subst ei
      rw [put_self]
      have h1 : l.ids.Perm (Contents.ids ((r.id, r.size % u32) :: a (tag z))) := hl.map _
      rw [h1.nodup_iff]
      simp only [Contents.ids, List.map_cons, List.nodup_cons]
      exact ⟨hno _, h.nd _⟩
    · rw [put_ne _ ei]; exact h.nd i

end Rep

/-- The objects of the table that are on one of the lists `ks`. -/
def onLists (tag : μ → κ) (p : κ → Bool) (b : Base μ) : Contents := (b.tbl.filter (fun o => p (tag o.mt))).map (fun o => (o.id, o.size))

theorem Rep.mem_onLists (h : Rep tag a b) (p : κ → Bool) (x : ObjId × Nat) : x ∈ onLists tag p b ↔ ∃ k, p k = true ∧ x ∈ a k := by
  simp only [onLists, List.mem_map, List.mem_filter]
  constructor
  · rintro ⟨o, ⟨ho, hp⟩, rfl⟩
    exact ⟨_, hp, h.mem_of (lookup_of_mem h.nodup ho)⟩
  · rintro ⟨k, hp, hx⟩
    obtain ⟨o, h1, h2, h3⟩ := h.lookup hx
    obtain ⟨h4, h5⟩ := lookup_some_mem h1
    exact ⟨o, ⟨h4, by rw [h3]; exact hp⟩, Prod.ext h5 h2⟩

theorem Rep.onLists_nodup (h : Rep tag a b) (p : κ → Bool) : (onLists tag p b).ids.Nodup := by
  have : (onLists tag p b).ids.Sublist (b.tbl.map (·.id)) := by
    simp only [onLists, Contents.ids, List.map_map]
    exact (List.filter_sublist).map _
  exact h.nodup.sublist this

theorem nodup_of_ids {c : Contents} (h : c.ids.Nodup) : c.Nodup := List.Nodup.of_map _ h

/-- The selected objects are the union of the selected lists. -/
theorem Rep.onLists_perm (h : Rep tag a b) (p : κ → Bool) (c : Contents) (hn : c.Nodup) (hc : ∀ x, x ∈ c ↔ ∃ k, p k = true ∧ x ∈ a k) :
    (onLists tag p b).Perm c :=
  (List.perm_ext_iff_of_nodup (nodup_of_ids (h.onLists_nodup p)) hn).2 (fun x => by rw [h.mem_onLists, hc])

end
end Verif.Lists
