import Verif.Proof.Sim
import Verif.Algo.Queue
/-!
# Helper lemmas for single-queue algorithms
-/

namespace Verif
open Spec
variable {μ : Type}

/-- Stored size of an object. -/
def Base.szOf (b : Base μ) (id : ObjId) : Option Nat := (b.lookup id).map (·.size)

/-- The cached objects in queue order, head first, with their stored sizes. -/
def orderOf (b : Base μ) (q : List ObjId) : Contents :=
  q.filterMap (fun id => (b.szOf id).map (fun n => (id, n)))

structure QInv (cs md : Nat) (s : QState μ) : Prop where
  base : BInv cs md s.base
  q : s.q.Perm (s.base.tbl.map (·.id))

section szOf
variable {b b' : Base μ}

theorem szOf_modify (id id' : ObjId) (f : Obj μ → Obj μ) (hid : ∀ o, (f o).id = o.id)
    (hsz : ∀ o, (f o).size = o.size) : (b.modify id f).szOf id' = b.szOf id' := by
  unfold Base.szOf
  by_cases h : id' = id
  · subst h
    cases hl : b.lookup id' with
    | some o => rw [lookup_modify_self hid hl]; simp [hsz]
    | none =>
      have : (b.modify id' f).lookup id' = none := by
        rw [lookup_none_iff] at hl ⊢
        intro o ho
        simp only [Base.modify, List.mem_map] at ho
        obtain ⟨o', ho', rfl⟩ := ho
        have := hl o' ho'
        split <;> simp [hid, this]
      rw [this]
  · rw [lookup_modify_ne hid h]

theorem szOf_congr (h : b'.tbl = b.tbl) (id : ObjId) : b'.szOf id = b.szOf id := by
  unfold Base.szOf Base.lookup; rw [h]

theorem szOf_insert (z : μ) (r : Req) (id : ObjId) :
    (b.insertBase z r).szOf id = if id = r.id then some (r.size % u32) else b.szOf id := by
  unfold Base.szOf Base.lookup Base.insertBase
  simp only [List.find?_cons, Obj.ofReq]
  by_cases h : id = r.id
  · subst h; simp
  · have : (r.id == id) = false := by simpa using fun e => h e.symm
    simp [this, h]

theorem lookup_eraseP_ne {id id' : ObjId} (h : b'.tbl = b.tbl.eraseP (fun o => o.id == id)) (hne : id' ≠ id) :
    b'.lookup id' = b.lookup id' := by
  unfold Base.lookup
  rw [h]
  generalize b.tbl = l
  clear h
  induction l with
  | nil => rfl
  | cons a l ih =>
    by_cases ha : a.id = id
    · rw [List.eraseP_cons_of_pos (by simpa using ha), List.find?_cons]
      have : (a.id == id') = false := by rw [ha]; simpa using fun e => hne e.symm
      simp [this]
    · rw [List.eraseP_cons_of_neg (by simpa using ha), List.find?_cons, List.find?_cons, ih]

theorem szOf_erase {id id' : ObjId} (h : b'.tbl = b.tbl.eraseP (fun o => o.id == id)) (hne : id' ≠ id) :
    b'.szOf id' = b.szOf id' := by
  unfold Base.szOf; rw [lookup_eraseP_ne h hne]

theorem szOf_isSome_of_mem {q : List ObjId} (hq : q.Perm (b.tbl.map (·.id))) {id : ObjId} (h : id ∈ q) :
    ∃ o, b.lookup id = some o := mem_ids_iff_exists.1 (hq.subset h)

end szOf

section order
variable {b b' : Base μ} {q : List ObjId}

theorem orderOf_congr (h : ∀ id ∈ q, b'.szOf id = b.szOf id) : orderOf b' q = orderOf b q := by
  unfold orderOf
  apply List.filterMap_congr
  intro id hid
  rw [h id hid]

theorem orderOf_ids (hq : ∀ id ∈ q, ∃ o, b.lookup id = some o) : (orderOf b q).ids = q := by
  unfold orderOf
  induction q with
  | nil => rfl
  | cons a q ih =>
    obtain ⟨o, ho⟩ := hq a (by simp)
    rw [List.filterMap_cons]
    simp only [Base.szOf, ho, Option.map_some, List.map_cons]
    rw [show (q.filterMap fun id => Option.map (fun n => (id, n)) (b.szOf id)) = orderOf b q from rfl] at *
    rw [show Contents.ids _ = _ from rfl] at ih
    exact congrArg _ (ih (fun id h => hq id (by simp [h])))

theorem orderOf_cons {id : ObjId} {o : Obj μ} (h : b.lookup id = some o) :
    orderOf b (id :: q) = (id, o.size) :: orderOf b q := by
  simp [orderOf, Base.szOf, h]

theorem orderOf_perm {q' : List ObjId} (h : q.Perm q') : (orderOf b q).Perm (orderOf b q') :=
  h.filterMap _

theorem orderOf_ids_perm_cached (hn : (b.tbl.map (·.id)).Nodup) (hq : q.Perm (b.tbl.map (·.id))) :
    (orderOf b q).Perm b.cached := by
  refine (orderOf_perm hq).trans ?_
  have : orderOf b (b.tbl.map (·.id)) = b.cached := by
    unfold orderOf Base.cached
    rw [List.filterMap_map]
    rw [← List.filterMap_eq_map]
    apply List.filterMap_congr
    intro o ho
    simp [Function.comp, Base.szOf, lookup_of_mem hn ho]
  rw [this]

theorem orderOf_filter (b : Base μ) (q : List ObjId) (p : ObjId → Bool) :
    orderOf b (q.filter p) = (orderOf b q).filter (fun x => p x.1) := by
  unfold orderOf
  induction q with
  | nil => rfl
  | cons a q ih =>
    by_cases h : p a
    · rw [List.filter_cons_of_pos h]
      cases hs : b.szOf a with
      | none => simp only [List.filterMap_cons, hs, Option.map_none]; exact ih
      | some n => simp only [List.filterMap_cons, hs, Option.map_some]; rw [List.filter_cons_of_pos (by exact h), ih]
    · rw [List.filter_cons_of_neg h]
      cases hs : b.szOf a with
      | none => simp only [List.filterMap_cons, hs, Option.map_none]; exact ih
      | some n => simp only [List.filterMap_cons, hs, Option.map_some]; rw [List.filter_cons_of_neg (by exact h), ih]

theorem orderOf_append (b : Base μ) (q q' : List ObjId) : orderOf b (q ++ q') = orderOf b q ++ orderOf b q' := by
  simp [orderOf, List.filterMap_append]

theorem erase_eq_filter {id : ObjId} (hn : q.Nodup) : q.erase id = q.filter (fun x => x ≠ id) := by
  rw [hn.erase_eq_filter]
  apply List.filter_congr
  intro x _
  simp [bne, BEq.beq]

end order

namespace QInv
variable {cs md : Nat} {s : QState μ}

theorem nodup (h : QInv cs md s) : s.q.Nodup := h.q.nodup_iff.2 h.base.inv.nodup

theorem mem_iff (h : QInv cs md s) (id : ObjId) : id ∈ s.q ↔ ∃ o, s.base.lookup id = some o := by
  rw [h.q.mem_iff, mem_ids_iff_exists]

theorem mem_of_lookup (h : QInv cs md s) {id : ObjId} {o : Obj μ} (ho : s.base.lookup id = some o) : id ∈ s.q :=
  (h.mem_iff id).2 ⟨o, ho⟩

theorem notMem_of_lookup (h : QInv cs md s) {id : ObjId} (ho : s.base.lookup id = none) : id ∉ s.q := by
  rw [h.mem_iff]; simp [ho]

theorem init (cs md : Nat) (adm : Adm) : QInv cs md (QState.init cs md adm : QState μ) :=
  ⟨⟨baseInv_init cs md adm, rfl, rfl⟩, by simp [QState.init, Base.init]⟩

theorem frame (h : QInv cs md s) (n : Nat) (a : Adm) :
    QInv cs md ({ s with base := { s.base with nReq := n, adm := a } } : QState μ) :=
  ⟨⟨⟨h.base.inv.nodup, h.base.inv.occ_eq, h.base.inv.nObj_eq, h.base.inv.cap, h.base.inv.small⟩,
    h.base.cs, h.base.md⟩, h.q⟩

theorem insert (h : QInv cs md s) (z : μ) (r : Req) (hn : s.base.lookup r.id = none)
    (hroom : s.base.occ + r.size + md ≤ cs) (hsz : SizeOk md r) :
    ∃ s', QState.insert z s r = .ok s' ∧ QInv cs md s' ∧ s'.base = s.base.insertBase z r ∧ s'.q = r.id :: s.q := by
  have hnq := h.notMem_of_lookup hn
  refine ⟨{ base := s.base.insertBase z r, q := r.id :: s.q }, by simp [QState.insert, qPrepend, hnq],
    ⟨h.base.insert z r (lookup_none_iff'.1 hn) hroom hsz, ?_⟩, rfl, rfl⟩
  simp only [Base.insertBase, Obj.ofReq, List.map_cons]
  exact h.q.cons _

theorem erase_perm {id : ObjId} {b' : Base μ} {o : Obj μ} (h : QInv cs md s) (hid : o.id = id)
    (hp : s.base.tbl.Perm (o :: b'.tbl)) : (s.q.erase id).Perm (b'.tbl.map (·.id)) := by
  have h1 := h.q.trans (hp.map (·.id))
  simp only [List.map_cons, hid] at h1
  have := h1.erase id
  simpa using this

theorem remove_spec (h : QInv cs md s) {id : ObjId} {o : Obj μ} (ho : s.base.lookup id = some o) :
    ∃ s', QState.remove s id = .ok (true, s') ∧ QInv cs md s' ∧
      s.base.cached.Perm ((o.id, o.size) :: s'.base.cached) ∧ s'.q = s.q.erase id ∧
      s'.base.tbl = s.base.tbl.eraseP (fun o => o.id == id) ∧ s'.base.adm = s.base.adm := by
  obtain ⟨b', h1, h2, h3, h4, h5, h6, h7⟩ := h.base.remove ho
  have hm := h.mem_of_lookup ho
  refine ⟨{ base := b', q := s.q.erase id }, ?_, ⟨h2, h.erase_perm (lookup_some_mem ho).2 h4⟩, h5, rfl, h3, h6⟩
  simp [QState.remove, ho, qRemove, hm, h1]

theorem remove_miss {id : ObjId} (ho : s.base.lookup id = none) : QState.remove s id = .ok (false, s) := by
  simp [QState.remove, ho]

theorem evictTail_spec (h : QInv cs md s) (hne : s.base.tbl ≠ []) :
    ∃ s' o, QState.evictTail s = .ok s' ∧ QInv cs md s' ∧ s.base.lookup o.id = some o ∧
      s.q = s'.q ++ [o.id] ∧
      s.base.cached.Perm ((o.id, o.size) :: s'.base.cached) ∧
      s'.base.tbl = s.base.tbl.eraseP (fun x => x.id == o.id) ∧ s'.base.adm = s.base.adm := by
  have hq : s.q ≠ [] := by
    intro h0
    have := h.q.length_eq
    rw [h0] at this
    simp only [List.length_nil, List.length_map] at this
    exact hne (List.length_eq_zero_iff.1 this.symm)
  obtain ⟨o, ho⟩ := (h.mem_iff (s.q.getLast hq)).1 (List.getLast_mem hq)
  have hid := (lookup_some_mem ho).2
  obtain ⟨b', h1, h2, h3, h4, h5, h6, h7⟩ := h.base.remove ho
  have hsplit := List.dropLast_append_getLast hq
  refine ⟨{ base := b', q := s.q.dropLast }, o, ?_, ⟨h2, ?_⟩, by rw [hid]; exact ho, by rw [hid]; exact hsplit.symm, h5,
    by rw [hid]; exact h3, h6⟩
  · simp [QState.evictTail, qTail, List.getLast?_eq_some_getLast hq, Base.evictBase, h1, qDropTail]
  · have := h.erase_perm hid h4
    have hnd := h.nodup
    have key : ∀ (l : List ObjId) (x : ObjId), (l ++ [x]).Nodup → (l ++ [x]).erase x = l := by
      intro l x hl
      rw [List.nodup_append] at hl
      have hx : x ∉ l := fun hx => hl.2.2 x hx x (by simp) rfl
      rw [List.erase_append_right _ hx]; simp
    have e := key s.q.dropLast (s.q.getLast hq) (by rw [hsplit]; exact hnd)
    rw [hsplit] at e
    rw [e] at this
    exact this

end QInv

/-- `order` of a queue state. -/
def QState.order (s : QState μ) : Contents := orderOf s.base s.q

theorem QInv.order_perm {cs md : Nat} {s : QState μ} (h : QInv cs md s) : s.order.Perm s.base.cached :=
  orderOf_ids_perm_cached h.base.inv.nodup h.q

theorem QInv.order_ids {cs md : Nat} {s : QState μ} (h : QInv cs md s) : s.order.ids = s.q :=
  orderOf_ids (fun id hid => (h.mem_iff id).1 hid)

theorem QInv.order_evict {cs md : Nat} {s s' : QState μ} {o : Obj μ} (h : QInv cs md s)
    (hl : s.base.lookup o.id = some o) (hq : s.q = s'.q ++ [o.id])
    (ht : s'.base.tbl = s.base.tbl.eraseP (fun x => x.id == o.id)) : s'.order = s.order.dropLast := by
  have hnd := h.nodup
  rw [hq, List.nodup_append] at hnd
  have e : orderOf s'.base s'.q = orderOf s.base s'.q := by
    apply orderOf_congr
    intro id hid
    exact szOf_erase ht (by have := hnd.2.2 id hid o.id (by simp); exact this)
  unfold QState.order
  rw [e, hq, orderOf_append]
  have : orderOf s.base [o.id] = [(o.id, o.size)] := by rw [orderOf_cons hl]; rfl
  rw [this, List.dropLast_concat]

theorem QInv.order_remove {cs md : Nat} {s s' : QState μ} {id : ObjId} (h : QInv cs md s)
    (hq : s'.q = s.q.erase id) (ht : s'.base.tbl = s.base.tbl.eraseP (fun x => x.id == id)) :
    s'.order = s.order.filter (fun x => x.1 ≠ id) := by
  have e : orderOf s'.base s'.q = orderOf s.base s'.q := by
    apply orderOf_congr
    intro id' hid
    rw [hq, h.nodup.mem_erase_iff] at hid
    exact szOf_erase ht hid.1
  unfold QState.order
  rw [e, hq, erase_eq_filter h.nodup, orderOf_filter]

theorem QInv.order_insert {cs md : Nat} {s s' : QState μ} (z : μ) {r : Req} (h : QInv cs md s)
    (hn : s.base.lookup r.id = none) (hb : s'.base = s.base.insertBase z r) (hq : s'.q = r.id :: s.q) :
    s'.order = (r.id, r.size % u32) :: s.order := by
  unfold QState.order
  have hnq := h.notMem_of_lookup hn
  have e : orderOf s'.base s.q = orderOf s.base s.q := by
    apply orderOf_congr
    intro id hid
    rw [hb, szOf_insert, if_neg]
    rintro rfl; exact hnq hid
  rw [hq, ← e]
  have : s'.base.szOf r.id = some (r.size % u32) := by rw [hb, szOf_insert]; simp
  simp only [orderOf, List.filterMap_cons, this, Option.map_some]

theorem filter_id_eq {l : List ObjId} {id : ObjId} (hn : l.Nodup) (hm : id ∈ l) :
    l.filter (fun x => x = id) = [id] := by
  have := List.filter_beq id (l := l)
  have h2 : l.filter (fun x => decide (x = id)) = l.filter (fun x => x == id) := by
    apply List.filter_congr; intro x _; simp [BEq.beq]
  rw [h2, this, List.count_eq_one_of_mem hn hm]; rfl

theorem QInv.order_toFront {cs md : Nat} {s s' : QState μ} {id : ObjId} (h : QInv cs md s)
    (hm : id ∈ s.q) (hb : ∀ i, s'.base.szOf i = s.base.szOf i) (hq : s'.q = id :: s.q.erase id) :
    s'.order = toFront s.order id := by
  unfold QState.order toFront
  rw [orderOf_congr (fun i _ => hb i), hq, ← orderOf_filter s.base s.q (fun x => decide (x ≠ id)),
    ← orderOf_filter s.base s.q (fun x => decide (x = id)), ← orderOf_append, erase_eq_filter h.nodup,
    filter_id_eq h.nodup hm]
  rfl

theorem QInv.touchFront {cs md : Nat} {s : QState μ} (r : Req) {o : Obj μ} (h : QInv cs md s)
    (ho : s.base.lookup r.id = some o) :
    QInv cs md ({ base := s.base.modify r.id (touch r), q := r.id :: s.q.erase r.id } : QState μ) := by
  refine ⟨h.base.modify r.id (touch r) (fun _ => rfl) (fun _ => rfl), ?_⟩
  simp only
  rw [Base.ids_modify _ _ (touch r) (fun _ => rfl)]
  exact (List.perm_cons_erase (h.mem_of_lookup ho)).symm.trans h.q

theorem QInv.touchOnly {cs md : Nat} {s : QState μ} (id : ObjId) (f : Obj μ → Obj μ) (h : QInv cs md s)
    (hid : ∀ o, (f o).id = o.id) (hsz : ∀ o, (f o).size = o.size) :
    QInv cs md ({ base := s.base.modify id f, q := s.q } : QState μ) := by
  refine ⟨h.base.modify id f hid hsz, ?_⟩
  simp only
  rw [Base.ids_modify _ _ _ hid]
  exact h.q

end Verif
