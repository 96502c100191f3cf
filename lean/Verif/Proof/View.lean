import Verif.Proof.Queue
/-!
# Queue contents seen through a projection of the objects
-/

namespace Verif
open Spec
variable {μ α : Type}

/-- The objects on a queue, in order, seen through `f`. -/
def viewOf (f : Obj μ → α) (b : Base μ) (q : List ObjId) : List α :=
  q.filterMap (fun id => (b.lookup id).map f)

theorem lookup_modify (b : Base μ) (id id' : ObjId) (g : Obj μ → Obj μ) (hid : ∀ o, (g o).id = o.id) :
    (b.modify id g).lookup id' = (b.lookup id').map (fun o => if o.id = id then g o else o) := by
  by_cases h : id' = id
  · subst h
    cases hl : b.lookup id' with
    | some o =>
      rw [lookup_modify_self hid hl]
      simp [(lookup_some_mem hl).2]
    | none =>
      simp only [Option.map_none]
      rw [lookup_none_iff] at hl ⊢
      intro o ho
      simp only [Base.modify, List.mem_map] at ho
      obtain ⟨o', ho', rfl⟩ := ho
      have := hl o' ho'
      split <;> simp [hid, this]
  · rw [lookup_modify_ne hid h]
    cases hl : b.lookup id' with
    | none => rfl
    | some o =>
      have := (lookup_some_mem hl).2
      simp [this, h]

theorem lookup_insertBase (b : Base μ) (z : μ) (r : Req) (id : ObjId) :
    (b.insertBase z r).lookup id = if id = r.id then some (Obj.ofReq z r) else b.lookup id := by
  unfold Base.lookup Base.insertBase
  simp only [List.find?_cons]
  by_cases h : id = r.id
  · subst h; simp [Obj.ofReq]
  · have : ((Obj.ofReq z r).id == id) = false := by simpa [Obj.ofReq] using fun e => h e.symm
    simp [this, h]

section
variable {f : Obj μ → α} {b b' : Base μ} {q : List ObjId}

theorem viewOf_congr (h : ∀ id ∈ q, (b'.lookup id).map f = (b.lookup id).map f) : viewOf f b' q = viewOf f b q :=
  List.filterMap_congr h

theorem viewOf_nil : viewOf f b [] = [] := rfl

theorem viewOf_cons {id : ObjId} {o : Obj μ} (h : b.lookup id = some o) :
    viewOf f b (id :: q) = f o :: viewOf f b q := by
  simp [viewOf, h]

theorem viewOf_append (q q' : List ObjId) : viewOf f b (q ++ q') = viewOf f b q ++ viewOf f b q' := by
  simp [viewOf, List.filterMap_append]

theorem viewOf_reverse (q : List ObjId) : viewOf f b q.reverse = (viewOf f b q).reverse := by
  simp [viewOf, List.filterMap_reverse]

theorem viewOf_filter (p : ObjId → Bool) (p' : α → Bool)
    (h : ∀ o ∈ b.tbl, p' (f o) = p o.id) : viewOf f b (q.filter p) = (viewOf f b q).filter p' := by
  unfold viewOf
  induction q with
  | nil => rfl
  | cons a q ih =>
    cases hl : b.lookup a with
    | none =>
      by_cases hp : p a
      · rw [List.filter_cons_of_pos hp]; simp only [List.filterMap_cons, hl, Option.map_none]; exact ih
      · rw [List.filter_cons_of_neg hp]; simp only [List.filterMap_cons, hl, Option.map_none]; exact ih
    | some o =>
      obtain ⟨hm, hid⟩ := lookup_some_mem hl
      have ho := h o hm
      rw [hid] at ho
      by_cases hp : p a
      · rw [List.filter_cons_of_pos hp]; simp only [List.filterMap_cons, hl, Option.map_some]
        rw [List.filter_cons_of_pos (by rw [ho]; exact hp), ih]
      · rw [List.filter_cons_of_neg hp]; simp only [List.filterMap_cons, hl, Option.map_some]
        rw [List.filter_cons_of_neg (by rw [ho]; exact hp), ih]

theorem viewOf_modify (id : ObjId) (g : Obj μ → Obj μ) (hid : ∀ o, (g o).id = o.id) (h : α → α)
    (hh : ∀ o, f (if o.id = id then g o else o) = h (f o)) :
    viewOf f (b.modify id g) q = (viewOf f b q).map h := by
  unfold viewOf
  rw [List.map_filterMap]
  apply List.filterMap_congr
  intro x _
  rw [lookup_modify _ _ _ _ hid]
  cases b.lookup x with
  | none => rfl
  | some o => simp [hh]

theorem viewOf_map {β : Type} (g : α → β) : (viewOf f b q).map g = viewOf (fun o => g (f o)) b q := by
  unfold viewOf
  rw [List.map_filterMap]
  apply List.filterMap_congr
  intro x _
  cases b.lookup x <;> rfl

theorem viewOf_tbl (hn : (b.tbl.map (·.id)).Nodup) : viewOf f b (b.tbl.map (·.id)) = b.tbl.map f := by
  unfold viewOf
  rw [List.filterMap_map, ← List.filterMap_eq_map]
  apply List.filterMap_congr
  intro o ho
  simp [Function.comp, lookup_of_mem hn ho]

theorem viewOf_perm_tbl (hn : (b.tbl.map (·.id)).Nodup) (hq : q.Perm (b.tbl.map (·.id))) :
    (viewOf f b q).Perm (b.tbl.map f) := by
  rw [← viewOf_tbl (f := f) hn]
  exact hq.filterMap _

theorem viewOf_erase {id : ObjId} (ht : b'.tbl = b.tbl.eraseP (fun o => o.id == id)) (hq : id ∉ q) :
    viewOf f b' q = viewOf f b q := by
  apply viewOf_congr
  intro x hx
  rw [lookup_eraseP_ne ht]
  rintro rfl; exact hq hx

theorem viewOf_insert (z : μ) (r : Req) (hq : r.id ∉ q) : viewOf f (b.insertBase z r) q = viewOf f b q := by
  apply viewOf_congr
  intro x hx
  rw [lookup_insertBase, if_neg]
  rintro rfl; exact hq hx

theorem find?_split {q : List ObjId} {p : ObjId → Bool} {a : List ObjId} {x : ObjId} {c : List ObjId}
    (hq : q = a ++ x :: c) (ha : ∀ y ∈ a, p y = false) (hx : p x = true) : q.find? p = some x := by
  subst hq
  rw [List.find?_append]
  have : a.find? p = none := by rw [List.find?_eq_none]; intro y hy; simp [ha y hy]
  simp [this, hx]

end

/-! ### Rotation keeps the first lowest object -/

theorem firstLowest_rotate {x : Item} {t : List Item} {id : ObjId} (hx : x.cnt ≠ 0)
    (h : IsFirstLowest (t ++ [{ x with cnt := x.cnt - 1 }]) id) : IsFirstLowest (x :: t) id := by
  obtain ⟨a, y, b, hab, hid, ha, hb⟩ := h
  rcases List.eq_nil_or_concat b with rfl | ⟨b', z, rfl⟩
  · have h2 := List.append_inj' hab rfl
    obtain ⟨rfl, hy⟩ := h2
    simp only [List.cons.injEq, and_true] at hy
    subst hy
    refine ⟨[], x, t, rfl, hid, by simp, ?_⟩
    intro z hz
    have := ha z hz
    simp only at this; omega
  · rw [List.concat_eq_append, ← List.cons_append, ← List.append_assoc] at hab
    obtain ⟨rfl, hz⟩ := List.append_inj' hab rfl
    simp only [List.cons.injEq, and_true] at hz
    subst hz
    refine ⟨x :: a, y, b', rfl, hid, ?_, ?_⟩
    · intro w hw
      rcases List.mem_cons.1 hw with rfl | hw
      · have := hb _ (by simp : { w with cnt := w.cnt - 1 } ∈ b'.concat { w with cnt := w.cnt - 1 })
        simp only at this; omega
      · exact ha w hw
    · intro w hw; exact hb w (by simp [hw])

theorem firstLowest_zero {x : Item} {t : List Item} (hx : x.cnt = 0) : IsFirstLowest (x :: t) x.id :=
  ⟨[], x, t, rfl, rfl, by simp, by intro y _; omega⟩

/-- An object with a counter as union member, as a specification item. -/
def cntItem (o : Obj Nat) : Item := ⟨o.id, o.size, o.mt⟩

theorem le_sum_of_mem {l : List Nat} {x : Nat} (h : x ∈ l) : x ≤ l.sum := by
  induction l with
  | nil => simp at h
  | cons a l ih =>
    rw [List.sum_cons]
    rcases List.mem_cons.1 h with rfl | h
    · omega
    · have := ih h; omega

/-- A first lowest object of a view comes from the corresponding split of the queue. -/
theorem firstLowest_split {b : Base Nat} {q : List ObjId} (hq : ∀ id ∈ q, ∃ o, b.lookup id = some o) {id : ObjId}
    (h : IsFirstLowest (viewOf cntItem b q) id) :
    ∃ a c o, q = a ++ id :: c ∧ b.lookup id = some o ∧
      (∀ y ∈ a, ∃ o', b.lookup y = some o' ∧ o.mt < o'.mt) ∧
      (∀ y ∈ c, ∃ o', b.lookup y = some o' ∧ o.mt ≤ o'.mt) := by
  obtain ⟨a, x, c, hab, hid, ha, hc⟩ := h
  have key : ∀ (q : List ObjId), (∀ id ∈ q, ∃ o, b.lookup id = some o) → ∀ a x c, viewOf cntItem b q = a ++ x :: c →
      ∃ a' id' c', q = a' ++ id' :: c' ∧ viewOf cntItem b a' = a ∧ (b.lookup id').map cntItem = some x ∧ viewOf cntItem b c' = c := by
    intro q
    induction q with
    | nil => intro _ a x c h; simp [viewOf] at h
    | cons y q ih =>
      intro hq a x c h
      obtain ⟨o, ho⟩ := hq y (by simp)
      rw [viewOf_cons ho] at h
      cases a with
      | nil =>
        simp only [List.nil_append, List.cons.injEq] at h
        exact ⟨[], y, q, rfl, rfl, by simp [ho, h.1], h.2⟩
      | cons a0 a =>
        simp only [List.cons_append, List.cons.injEq] at h
        obtain ⟨a', id', c', h1, h2, h3, h4⟩ := ih (fun i hi => hq i (by simp [hi])) a x c h.2
        exact ⟨y :: a', id', c', by simp [h1], by rw [viewOf_cons ho, h2, h.1], h3, h4⟩
  obtain ⟨a', id', c', h1, h2, h3, h4⟩ := key q hq a x c hab
  have hl : ∃ o, b.lookup id' = some o := hq id' (by rw [h1]; simp)
  obtain ⟨o, ho⟩ := hl
  rw [ho] at h3
  simp only [Option.map_some, Option.some.injEq] at h3
  have hid' : id' = id := by rw [← hid, ← h3]; exact (lookup_some_mem ho).2.symm
  subst hid'
  have mem : ∀ (l : List ObjId), (∀ y ∈ l, y ∈ q) → ∀ y ∈ l, ∃ o', b.lookup y = some o' ∧ cntItem o' ∈ viewOf cntItem b l := by
    intro l hl y hy
    obtain ⟨o', ho'⟩ := hq y (hl y hy)
    exact ⟨o', ho', List.mem_filterMap.2 ⟨y, hy, by simp [ho']⟩⟩
  refine ⟨a', c', o, h1, ho, ?_, ?_⟩
  · intro y hy
    obtain ⟨o', e1, e2⟩ := mem a' (by intro y hy; rw [h1]; simp [hy]) y hy
    rw [h2] at e2
    have := ha _ e2
    rw [← h3] at this
    exact ⟨o', e1, this⟩
  · intro y hy
    obtain ⟨o', e1, e2⟩ := mem c' (by intro y hy; rw [h1]; simp [hy]) y hy
    rw [h4] at e2
    have := hc _ e2
    rw [← h3] at this
    exact ⟨o', e1, this⟩

end Verif
