import Verif.Algo.QDLPv0
import Verif.Spec.QuickDemotion
import Verif.Proof.Sieve
import Verif.Proof.Lists
/-!
# QDLPv0 keeps its queues as specified
-/

namespace Verif.QDLPv0
open Verif Spec
open Verif.Spec.QuickDemotion (Queues Sizes)

def Has (b : Base Meta) (p : Place) (x : Item) : Prop := ∃ o, b.lookup x.id = some o ∧ o.size = x.size ∧ o.mt = ⟨p, x.cnt⟩

def HasG (b : Base Meta) (x : ObjId × Nat) : Prop := ∃ o, b.lookup x.1 = some o ∧ o.size = x.2 ∧ o.mt.place = .ghost

def items (t : SieveState) : List Item := t.passed ++ t.ahead

def ids (l : List Item) : List ObjId := l.map Item.id

def allIds (a : Queues) : List ObjId := ids a.fifo ++ (ids (items a.main) ++ a.ghosts.ids)

/-- the hash table holds the objects of the queues -/
structure Tab (z : Sizes) (a : Queues) (b : Base Meta) : Prop where
  nodup : (b.tbl.map (·.id)).Nodup
  tbl : (b.tbl.map (·.id)).Perm (allIds a)
  hf : ∀ x ∈ a.fifo, Has b .fifo x
  hm : ∀ x ∈ items a.main, Has b .clock x
  hg : ∀ x ∈ a.ghosts, HasG b x
  small : ∀ o ∈ b.tbl, o.size + z.md < u32
  csz : b.cacheSize = z.cache
  mdz : b.objMd = z.md

section
variable {z : Sizes} {a a' : Queues} {b b' : Base Meta}

theorem Tab.nd (h : Tab z a b) : (allIds a).Nodup := h.tbl.nodup_iff.1 h.nodup

theorem Tab.notIn (h : Tab z a b) {id : ObjId} (hn : b.lookup id = none) : id ∉ allIds a := by
  intro hm
  have := h.tbl.mem_iff.2 hm
  obtain ⟨o, ho⟩ := mem_ids_iff_exists.1 this
  rw [hn] at ho; cases ho

theorem Tab.lookup_none (h : Tab z a b) {id : ObjId} (hn : id ∉ allIds a) : b.lookup id = none := by
  cases e : b.lookup id with
  | none => rfl
  | some o => exact absurd (h.tbl.mem_iff.1 (mem_ids_iff_exists.2 ⟨o, e⟩)) hn

theorem Tab.found (h : Tab z a b) {id : ObjId} {o : Obj Meta} (ho : b.lookup id = some o) :
    (∃ x ∈ a.fifo, x.id = id ∧ o.size = x.size ∧ o.mt = ⟨.fifo, x.cnt⟩) ∨
    (∃ x ∈ items a.main, x.id = id ∧ o.size = x.size ∧ o.mt = ⟨.clock, x.cnt⟩) ∨
    (∃ x ∈ a.ghosts, x.1 = id ∧ o.size = x.2 ∧ o.mt.place = .ghost) := by
  have hm := h.tbl.mem_iff.1 (mem_ids_iff_exists.2 ⟨o, ho⟩)
  simp only [allIds, List.mem_append] at hm
  rcases hm with hm | hm | hm
  · obtain ⟨x, hx, rfl⟩ := List.mem_map.1 hm
    obtain ⟨o', h1, h2, h3⟩ := h.hf x hx
    rw [ho] at h1; cases h1
    exact Or.inl ⟨x, hx, rfl, h2, h3⟩
  · obtain ⟨x, hx, rfl⟩ := List.mem_map.1 hm
    obtain ⟨o', h1, h2, h3⟩ := h.hm x hx
    rw [ho] at h1; cases h1
    exact Or.inr (Or.inl ⟨x, hx, rfl, h2, h3⟩)
  · obtain ⟨x, hx, rfl⟩ := List.mem_map.1 hm
    obtain ⟨o', h1, h2, h3⟩ := h.hg x hx
    rw [ho] at h1; cases h1
    exact Or.inr (Or.inr ⟨x, hx, rfl, h2, h3⟩)

theorem Tab.congr (h : Tab z a b) (ht : b'.tbl = b.tbl) (hc : b'.cacheSize = b.cacheSize) (hd : b'.objMd = b.objMd) : Tab z a b' := by
  have hl : ∀ id, b'.lookup id = b.lookup id := fun id => by simp only [Base.lookup, ht]
  refine ⟨by rw [ht]; exact h.nodup, by rw [ht]; exact h.tbl, ?_, ?_, ?_, by rw [ht]; exact h.small, hc.trans h.csz, hd.trans h.mdz⟩
  · intro x hx; unfold Has; rw [hl]; exact h.hf x hx
  · intro x hx; unfold Has; rw [hl]; exact h.hm x hx
  · intro x hx; unfold HasG; rw [hl]; exact h.hg x hx

def HasIf (b : Base Meta) (id : ObjId) (g : Obj Meta → Obj Meta) (p : Place) (x : Item) : Prop :=
  ∃ o, b.lookup x.id = .some o ∧ o.size = x.size ∧ (if x.id = id then (g o).mt else o.mt) = ⟨p, x.cnt⟩

theorem HasIf.has {id : ObjId} {g : Obj Meta → Obj Meta} (hid : ∀ o, (g o).id = o.id) (hsz : ∀ o, (g o).size = o.size) {p : Place} {x : Item}
    (h : HasIf b id g p x) : Has (b.modify id g) p x := by
  obtain ⟨o, h1, h2, h3⟩ := h
  have e := (lookup_some_mem h1).2
  unfold Has
  rw [lookup_modify _ _ _ _ hid, h1]
  by_cases hx : x.id = id
  · rw [if_pos hx] at h3
    exact ⟨g o, by simp [e, hx], by rw [hsz, h2], h3⟩
  · rw [if_neg hx] at h3
    exact ⟨o, by simp [e, hx], h2, h3⟩

theorem Has.hasIf {id : ObjId} {g : Obj Meta → Obj Meta} {p : Place} {x : Item} (h : Has b p x) (hn : x.id ≠ id) : HasIf b id g p x := by
  obtain ⟨o, h1, h2, h3⟩ := h
  exact ⟨o, h1, h2, by rw [if_neg hn]; exact h3⟩

/-- an object is rewritten -/
theorem Tab.modify (h : Tab z a b) (id : ObjId) (g : Obj Meta → Obj Meta) (hid : ∀ o, (g o).id = o.id) (hsz : ∀ o, (g o).size = o.size)
    (hp : (allIds a).Perm (allIds a')) (hf : ∀ x ∈ a'.fifo, HasIf b id g .fifo x) (hm : ∀ x ∈ items a'.main, HasIf b id g .clock x)
    (hg : ∀ x ∈ a'.ghosts, ∃ o, b.lookup x.1 = .some o ∧ o.size = x.2 ∧ (if x.1 = id then (g o).mt.place else o.mt.place) = .ghost) :
    Tab z a' (b.modify id g) := by
  refine ⟨by rw [Base.ids_modify _ _ _ hid]; exact h.nodup, by rw [Base.ids_modify _ _ _ hid]; exact h.tbl.trans hp,
    fun x hx => (hf x hx).has hid hsz, fun x hx => (hm x hx).has hid hsz, ?_, ?_, h.csz, h.mdz⟩
  · intro x hx
    obtain ⟨o, h1, h2, h3⟩ := hg x hx
    have e := (lookup_some_mem h1).2
    unfold HasG
    rw [lookup_modify _ _ _ _ hid, h1]
    by_cases hx : x.1 = id
    · rw [if_pos hx] at h3
      exact ⟨g o, by simp [e, hx], by rw [hsz, h2], h3⟩
    · rw [if_neg hx] at h3
      exact ⟨o, by simp [e, hx], h2, h3⟩
  · intro o ho
    simp only [Base.modify, List.mem_map] at ho
    obtain ⟨o', ho', rfl⟩ := ho
    have := h.small o' ho'
    split
    · rw [hsz]; exact this
    · exact this

theorem Tab.touch (h : Tab z a b) (r : Req) : Tab z a (b.modify r.id (Verif.touch r)) := by
  refine h.modify r.id (Verif.touch r) (fun _ => rfl) (fun _ => rfl) (List.Perm.refl _) ?_ ?_ ?_
  · intro x hx
    obtain ⟨o, h1, h2, h3⟩ := h.hf x hx
    exact ⟨o, h1, h2, by split <;> exact h3⟩
  · intro x hx
    obtain ⟨o, h1, h2, h3⟩ := h.hm x hx
    exact ⟨o, h1, h2, by split <;> exact h3⟩
  · intro x hx
    obtain ⟨o, h1, h2, h3⟩ := h.hg x hx
    exact ⟨o, h1, h2, by split <;> exact h3⟩

/-- an object is deleted -/
theorem Tab.del (h : Tab z a b) (id : ObjId) (hp : (allIds a).Perm (id :: allIds a')) (hf : ∀ x ∈ a'.fifo, x ∈ a.fifo)
    (hm : ∀ x ∈ items a'.main, Has b .clock x) (hg : ∀ x ∈ a'.ghosts, x ∈ a.ghosts) (ht : b'.tbl = (b.del id).tbl) (hc : b'.cacheSize = b.cacheSize)
    (hd : b'.objMd = b.objMd) : Tab z a' b' := by
  refine Tab.congr (b := b.del id) ?_ ht hc hd
  have hnd := hp.nodup_iff.1 h.nd
  rw [List.nodup_cons] at hnd
  have hl : ∀ y ∈ allIds a', (b.del id).lookup y = b.lookup y := by
    intro y hy
    rw [Lists.lookup_del h.nodup, if_neg]
    rintro rfl; exact hnd.1 hy
  refine ⟨?_, ?_, ?_, ?_, ?_, ?_, h.csz, h.mdz⟩
  · exact h.nodup.sublist ((List.eraseP_sublist).map _)
  · have hin : id ∈ b.tbl.map (·.id) := h.tbl.mem_iff.2 (hp.mem_iff.2 List.mem_cons_self)
    obtain ⟨o, ho⟩ := mem_ids_iff_exists.1 hin
    obtain ⟨h1, h2⟩ := lookup_some_mem ho
    have := (eraseP_split (id := id) h.nodup h1 h2).map (·.id)
    simp only [List.map_cons, h2] at this
    exact (List.perm_cons id).1 (this.symm.trans (h.tbl.trans hp))
  · intro x hx
    unfold Has
    rw [hl x.id (by simp only [allIds, ids, List.mem_append]; exact Or.inl (List.mem_map_of_mem hx))]
    exact h.hf x (hf x hx)
  · intro x hx
    unfold Has
    rw [hl x.id (by simp only [allIds, ids, List.mem_append]; exact Or.inr (Or.inl (List.mem_map_of_mem hx)))]
    exact hm x hx
  · intro x hx
    unfold HasG
    rw [hl x.1 (by simp only [allIds, List.mem_append]; exact Or.inr (Or.inr (List.mem_map_of_mem hx)))]
    exact h.hg x (hg x hx)
  · intro o ho; exact h.small o (List.mem_of_mem_eraseP ho)

/-- a new object -/
theorem Tab.insert (h : Tab z a b) (p : Place) (r : Req) (hr : r.size % u32 + z.md < u32) (hn : b.lookup r.id = Option.none)
    (hp : (allIds a').Perm (r.id :: allIds a))
    (hf : ∀ x ∈ a'.fifo, x ∈ a.fifo ∨ (p = .fifo ∧ x = ⟨r.id, r.size % u32, 0⟩)) (hm : ∀ x ∈ items a'.main, x ∈ items a.main ∨ (p = .clock ∧ x = ⟨r.id, r.size % u32, 0⟩))
    (hg : a'.ghosts = a.ghosts) : Tab z a' (b.insertBase ⟨p, 0⟩ r) := by
  have hno := h.notIn hn
  have hl : ∀ y ∈ allIds a, (b.insertBase ⟨p, 0⟩ r).lookup y = b.lookup y := by
    intro y hy
    rw [lookup_insertBase, if_neg]
    rintro rfl; exact hno hy
  have hnew : Has (b.insertBase ⟨p, 0⟩ r) p ⟨r.id, r.size % u32, 0⟩ := ⟨_, by rw [lookup_insertBase, if_pos rfl], rfl, rfl⟩
  refine ⟨?_, ?_, ?_, ?_, ?_, ?_, h.csz, h.mdz⟩
  · simp only [Base.insertBase, List.map_cons, List.nodup_cons]
    exact ⟨fun hm => hno (h.tbl.mem_iff.1 hm), h.nodup⟩
  · simp only [Base.insertBase, List.map_cons]
    exact (h.tbl.cons _).trans hp.symm
  · intro x hx
    rcases hf x hx with hx | ⟨rfl, rfl⟩
    · unfold Has
      rw [hl x.id (by simp only [allIds, ids, List.mem_append]; exact Or.inl (List.mem_map_of_mem hx))]
      exact h.hf x hx
    · exact hnew
  · intro x hx
    rcases hm x hx with hx | ⟨rfl, rfl⟩
    · unfold Has
      rw [hl x.id (by simp only [allIds, ids, List.mem_append]; exact Or.inr (Or.inl (List.mem_map_of_mem hx)))]
      exact h.hm x hx
    · exact hnew
  · intro x hx
    rw [hg] at hx
    unfold HasG
    rw [hl x.1 (by simp only [allIds, List.mem_append]; exact Or.inr (Or.inr (List.mem_map_of_mem hx)))]
    exact h.hg x hx
  · intro o ho
    simp only [Base.insertBase, List.mem_cons] at ho
    rcases ho with rfl | ho
    · exact hr
    · exact h.small o ho

end

/-! ### the state -/

structure Abs (z : Sizes) (a : Queues) (s : State) : Prop where
  tab : Tab z a s.base
  qf : s.fifo = ids a.fifo
  qm : s.clock.reverse = ids (items a.main)
  qg : s.ghost = a.ghosts.ids
  hand : (s.hand = .null ∧ a.main.passed = []) ∨ ∃ x l, a.main.ahead = x :: l ∧ s.hand = .at x.id
  bf : s.nFifoByte = (charge z.md (a.fifo.map Item.entry) : Nat)
  cm : s.nClockObj = ((items a.main).length : Nat)
  bm : s.nClockByte = (charge z.md ((items a.main).map Item.entry) : Nat)
  bg : s.nGhostByte = (charge z.md a.ghosts : Nat)
  occ : s.base.occ = (charge z.md (a.fifo.map Item.entry) + charge z.md ((items a.main).map Item.entry) : Nat)
  nObj : s.base.nObj = (a.fifo.length + (items a.main).length : Nat)
  bits : ∀ x ∈ items a.main, x.cnt ≤ 1
  fs : s.fifoSize = z.fifo
  ms : s.clockSize = z.main
  gs : s.ghostSize = z.main

section
variable {z : Sizes} {a : Queues} {s : State}

theorem Abs.frame (h : Abs z a s) (m : Nat) (ad : Adm) (v : Int) : Abs z a { s with base := { s.base with nReq := m, adm := ad }, vtime := v } :=
  ⟨h.tab.congr rfl rfl rfl, h.qf, h.qm, h.qg, h.hand, h.bf, h.cm, h.bm, h.bg, h.occ, h.nObj, h.bits, h.fs, h.ms, h.gs⟩

theorem Abs.osz (h : Abs z a s) {id : ObjId} {o : Obj Meta} (ho : s.base.lookup id = some o) : osz s o = (o.size + z.md : Nat) := by
  rw [QDLPv0.osz, h.tab.mdz, Nat.mod_eq_of_lt (h.tab.small o (lookup_some_mem ho).1)]

theorem Abs.touch (h : Abs z a s) (r : Req) : Abs z a { s with base := s.base.modify r.id (Verif.touch r) } :=
  ⟨h.tab.touch r, h.qf, h.qm, h.qg, h.hand, h.bf, h.cm, h.bm, h.bg, h.occ, h.nObj, h.bits, h.fs, h.ms, h.gs⟩

theorem nd_parts (h : Tab z a s.base) : (ids a.fifo).Nodup ∧ (ids (items a.main)).Nodup ∧ a.ghosts.ids.Nodup ∧
    (∀ id ∈ ids a.fifo, id ∉ ids (items a.main) ∧ id ∉ a.ghosts.ids) ∧ (∀ id ∈ ids (items a.main), id ∉ a.ghosts.ids) := by
  have := h.nd
  simp only [allIds, List.nodup_append, List.mem_append] at this
  obtain ⟨h1, ⟨h2, h3, h4⟩, h5⟩ := this
  exact ⟨h1, h2, h3, fun id hi => ⟨fun hm => h5 id hi id (Or.inl hm) rfl, fun hm => h5 id hi id (Or.inr hm) rfl⟩, fun id hi hm => h4 id hi id hm rfl⟩

theorem map_ids (l : List Item) (f : Item → Item) (hf : ∀ x, (f x).id = x.id) : ids (l.map f) = ids l := by
  simp only [ids, List.map_map]
  exact List.map_congr_left (fun x _ => hf x)

theorem map_entry (l : List Item) (f : Item → Item) (hf : ∀ x, (f x).entry = x.entry) : (l.map f).map Item.entry = l.map Item.entry := by
  simp only [List.map_map]
  exact List.map_congr_left (fun x _ => hf x)

def up (r : Req) : Item → Item := fun x => if x.id = r.id then { x with cnt := x.cnt + 1 } else x
def mark (r : Req) : Item → Item := fun x => if x.id = r.id then { x with cnt := 1 } else x

theorem up_id (r : Req) (x : Item) : (up r x).id = x.id := by unfold up; split <;> rfl
theorem mark_id (r : Req) (x : Item) : (mark r x).id = x.id := by unfold mark; split <;> rfl
theorem up_entry (r : Req) (x : Item) : (up r x).entry = x.entry := by unfold up; split <;> rfl
theorem mark_entry (r : Req) (x : Item) : (mark r x).entry = x.entry := by unfold mark; split <;> rfl

theorem hit_eq (a : Queues) (r : Req) : QuickDemotion.hit a r = ⟨a.fifo.map (up r), ⟨a.main.passed.map (mark r), a.main.ahead.map (mark r)⟩, a.ghosts⟩ := rfl

theorem items_mark (t : SieveState) (r : Req) : items ⟨t.passed.map (mark r), t.ahead.map (mark r)⟩ = (items t).map (mark r) := by
  simp [items]

/-- the queues after a hit -/
theorem Abs.hit (h : Abs z a s) (r : Req) (g : Obj Meta → Obj Meta) (hid : ∀ o, (g o).id = o.id) (hsz : ∀ o, (g o).size = o.size)
    (hgf : ∀ x ∈ a.fifo, x.id = r.id → ∀ o, s.base.lookup r.id = some o → (g o).mt = ⟨.fifo, x.cnt + 1⟩)
    (hgm : ∀ x ∈ items a.main, x.id = r.id → ∀ o, s.base.lookup r.id = some o → (g o).mt = ⟨.clock, 1⟩) (hgg : r.id ∉ a.ghosts.ids) :
    Abs z (QuickDemotion.hit a r) { s with base := s.base.modify r.id g } := by
  rw [hit_eq]
  have ei := items_mark a.main r
  have hall : allIds ⟨a.fifo.map (up r), ⟨a.main.passed.map (mark r), a.main.ahead.map (mark r)⟩, a.ghosts⟩ = allIds a := by
    simp only [allIds, ei, map_ids _ _ (up_id r), map_ids _ _ (mark_id r)]
  refine ⟨?_, ?_, ?_, h.qg, ?_, ?_, ?_, ?_, h.bg, ?_, ?_, ?_, h.fs, h.ms, h.gs⟩
  · refine h.tab.modify r.id g hid hsz (by rw [hall]) ?_ ?_ ?_
    · intro y hy
      obtain ⟨x, hx, rfl⟩ := List.mem_map.1 hy
      obtain ⟨o, h1, h2, h3⟩ := h.tab.hf x hx
      unfold HasIf
      rw [up_id]
      refine ⟨o, h1, ?_, ?_⟩
      · unfold up; split <;> exact h2
      · unfold up
        split
        · next e => rw [hgf x hx e o (by rw [← e]; exact h1)]
        · exact h3
    · rw [ei]
      intro y hy
      obtain ⟨x, hx, rfl⟩ := List.mem_map.1 hy
      obtain ⟨o, h1, h2, h3⟩ := h.tab.hm x hx
      unfold HasIf
      rw [mark_id]
      refine ⟨o, h1, ?_, ?_⟩
      · unfold mark; split <;> exact h2
      · unfold mark
        split
        · next e => rw [hgm x hx e o (by rw [← e]; exact h1)]
        · exact h3
    · intro x hx
      obtain ⟨o, h1, h2, h3⟩ := h.tab.hg x hx
      refine ⟨o, h1, h2, ?_⟩
      rw [if_neg]
      · exact h3
      · rintro e; exact hgg (by rw [← e]; exact List.mem_map_of_mem hx)
  · show s.fifo = _; rw [h.qf, map_ids _ _ (up_id r)]
  · show s.clock.reverse = _; rw [ei, h.qm, map_ids _ _ (mark_id r)]
  · rcases h.hand with ⟨h1, h2⟩ | ⟨x, l, h1, h2⟩
    · left; exact ⟨h1, by show a.main.passed.map (mark r) = []; rw [h2]; rfl⟩
    · right
      refine ⟨mark r x, l.map (mark r), ?_, ?_⟩
      · show a.main.ahead.map (mark r) = _; rw [h1]; rfl
      · rw [mark_id]; exact h2
  · show s.nFifoByte = _; rw [map_entry _ _ (up_entry r)]; exact h.bf
  · show s.nClockObj = _; rw [ei, List.length_map]; exact h.cm
  · show s.nClockByte = _; rw [ei, map_entry _ _ (mark_entry r)]; exact h.bm
  · show s.base.occ = _; rw [ei, map_entry _ _ (mark_entry r), map_entry _ _ (up_entry r)]; exact h.occ
  · show s.base.nObj = _; rw [ei, List.length_map, List.length_map]; exact h.nObj
  · rw [ei]
    intro y hy
    obtain ⟨x, hx, rfl⟩ := List.mem_map.1 hy
    unfold mark
    split
    · exact Nat.le_refl 1
    · exact h.bits x hx

theorem erase_filter {c : Contents} (hn : c.ids.Nodup) (id : ObjId) : Contents.ids (c.filter (fun x : ObjId × Nat => x.1 ≠ id)) = c.ids.erase id := Lists.without_ids id c hn

/-- a ghost is forgotten -/
theorem Abs.dropGhost (h : Abs z a s) {x : ObjId × Nat} (hx : x ∈ a.ghosts) {o : Obj Meta} (ho : s.base.lookup x.1 = some o) :
    ∃ s', removeObj s o = .ok s' ∧ Abs z { a with ghosts := a.ghosts.filter (fun y => y.1 ≠ x.1) } s' ∧ s'.base.nReq = s.base.nReq ∧
      s'.base.adm = s.base.adm ∧ s'.vtime = s.vtime := by
  obtain ⟨_, _, hng, hd1, hd2⟩ := nd_parts h.tab
  obtain ⟨o', h1, h2, h3⟩ := h.tab.hg x hx
  rw [ho] at h1; cases h1
  have hid : o.id = x.1 := (lookup_some_mem ho).2
  have hin : x.1 ∈ s.ghost := by rw [h.qg]; exact List.mem_map_of_mem hx
  refine ⟨{ s with ghost := s.ghost.erase x.1, nGhostByte := s.nGhostByte - QDLPv0.osz s o, base := s.base.del x.1 }, ?_, ?_, rfl, rfl, rfl⟩
  · simp only [removeObj, h3, hid, qRemove, if_pos hin, Res.bind_ok]
  · have hxp : a.ghosts.ids.Perm (x.1 :: Contents.ids (a.ghosts.filter (fun y => y.1 ≠ x.1))) := by
      rw [erase_filter hng]; exact List.perm_cons_erase (List.mem_map_of_mem hx)
    refine ⟨?_, h.qf, h.qm, ?_, h.hand, h.bf, h.cm, h.bm, ?_, h.occ, h.nObj, h.bits, h.fs, h.ms, h.gs⟩
    · refine h.tab.del x.1 ?_ (fun _ h => h) h.tab.hm (fun y hy => List.mem_of_mem_filter hy) rfl rfl rfl
      simp only [allIds]
      refine ((hxp.append_left _).append_left _).trans ?_
      refine (List.Perm.append_left _ List.perm_middle).trans List.perm_middle
    · show s.ghost.erase x.1 = _; rw [h.qg, erase_filter hng]
    · show s.nGhostByte - QDLPv0.osz s o = _
      have hw := Lists.without_charge (md := z.md) hng hx
      have hw' : charge z.md a.ghosts = charge z.md (a.ghosts.filter (fun y => y.1 ≠ x.1)) + (x.2 + z.md) := hw
      rw [h.bg, h.osz ho, h2, hw']; push_cast; omega

/-! ### find and insert -/

theorem findBase_hit' {b : Base Meta} {r : Req} {o : Obj Meta} (h : b.lookup r.id = some o) :
    b.findBase r true = (some (touch r o), b.modify r.id (touch r)) := findBase_hit h

theorem Abs.find_false (h : Abs z a s) (r : Req) : find s r false = .ok (decide (r.id ∈ a.contents.ids), s) := by
  obtain ⟨_, _, _, hd1, hd2⟩ := nd_parts h.tab
  have hc : r.id ∈ a.contents.ids ↔ r.id ∈ ids a.fifo ∨ r.id ∈ ids (items a.main) := by
    simp [Contents.ids, Queues.contents, sieve, ids, items, Item.entry]
  simp only [find, findBase_false, hc]
  cases e : s.base.lookup r.id with
  | none =>
    have := h.tab.notIn e
    simp only [allIds, List.mem_append, not_or] at this
    simp [this.1, this.2.1]
  | some o =>
    simp only [if_true]
    rcases h.tab.found e with ⟨x, hx, hid, _, hm⟩ | ⟨x, hx, hid, _, hm⟩ | ⟨x, hx, hid, _, hm⟩
    · have : r.id ∈ ids a.fifo := by rw [← hid]; exact List.mem_map_of_mem hx
      simp [this, hm]
    · have : r.id ∈ ids (items a.main) := by rw [← hid]; exact List.mem_map_of_mem hx
      simp [this, hm]
    · have hg : r.id ∈ a.ghosts.ids := by rw [← hid]; exact List.mem_map_of_mem hx
      have h1 : r.id ∉ ids a.fifo := fun hh => (hd1 _ hh).2 hg
      have h2 : r.id ∉ ids (items a.main) := fun hh => hd2 _ hh hg
      simp [h1, h2, hm]

theorem Abs.find_hit (h : Abs z a s) (r : Req) (hr : r.id ∈ a.contents.ids) :
    ∃ s', find s r true = .ok (true, s') ∧ Abs z (QuickDemotion.hit a r) s' ∧ s'.base.nReq = s.base.nReq ∧ s'.base.adm = s.base.adm ∧ s'.vtime = s.vtime := by
  obtain ⟨_, _, _, hd1, hd2⟩ := nd_parts h.tab
  have hc : r.id ∈ ids a.fifo ∨ r.id ∈ ids (items a.main) := by
    have := hr
    simpa [Contents.ids, Queues.contents, sieve, ids, items, Item.entry] using this
  have ht := h.touch r
  rcases hc with hc | hc
  · obtain ⟨x, hx, hid⟩ := List.mem_map.1 hc
    obtain ⟨o, h1, h2, h3⟩ := h.tab.hf x hx
    rw [hid] at h1
    have hlk : (s.base.modify r.id (Verif.touch r)).lookup r.id = some (Verif.touch r o) := lookup_modify_self (fun _ => rfl) h1
    refine ⟨{ s with base := (s.base.modify r.id (Verif.touch r)).modify r.id (fun o => { o with mt := ⟨o.mt.place, o.mt.freq + 1⟩ }) }, ?_, ?_, rfl, rfl, rfl⟩
    · simp only [find, findBase_hit' h1, Bool.true_eq_false, if_false]
      rw [show (Verif.touch r o).mt.place = .fifo from by rw [show (Verif.touch r o).mt = o.mt from rfl, h3]]
    refine ht.hit r (fun o => { o with mt := ⟨o.mt.place, o.mt.freq + 1⟩ }) (fun _ => rfl) (fun _ => rfl) ?_ ?_ (hd1 _ hc).2
    · intro y hy hyi o' ho'
      rw [show ({ s with base := s.base.modify r.id (Verif.touch r) } : State).base.lookup r.id = some (Verif.touch r o) from hlk] at ho'
      cases ho'
      obtain ⟨o2, k1, k2, k3⟩ := h.tab.hf y hy
      rw [hyi, h1] at k1; cases k1
      show (⟨o.mt.place, o.mt.freq + 1⟩ : Meta) = _
      rw [k3]
    · intro y hy hyi
      exact absurd (by rw [← hyi]; exact List.mem_map_of_mem hy) (hd1 _ hc).1
  · obtain ⟨x, hx, hid⟩ := List.mem_map.1 hc
    obtain ⟨o, h1, h2, h3⟩ := h.tab.hm x hx
    rw [hid] at h1
    have hlk : (s.base.modify r.id (Verif.touch r)).lookup r.id = some (Verif.touch r o) := lookup_modify_self (fun _ => rfl) h1
    refine ⟨{ s with base := (s.base.modify r.id (Verif.touch r)).modify r.id (fun o => { o with mt := ⟨o.mt.place, if o.mt.freq < 1 then o.mt.freq + 1 else o.mt.freq⟩ }) }, ?_, ?_, rfl, rfl, rfl⟩
    · simp only [find, findBase_hit' h1, Bool.true_eq_false, if_false]
      rw [show (Verif.touch r o).mt.place = .clock from by rw [show (Verif.touch r o).mt = o.mt from rfl, h3]]
    refine ht.hit r (fun o => { o with mt := ⟨o.mt.place, if o.mt.freq < 1 then o.mt.freq + 1 else o.mt.freq⟩ }) (fun _ => rfl) (fun _ => rfl) ?_ ?_ (hd2 _ hc)
    · intro y hy hyi
      exact absurd hc (hd1 _ (by rw [← hyi]; exact List.mem_map_of_mem hy)).1
    · intro y hy hyi o' ho'
      rw [show ({ s with base := s.base.modify r.id (Verif.touch r) } : State).base.lookup r.id = some (Verif.touch r o) from hlk] at ho'
      cases ho'
      obtain ⟨o2, k1, k2, k3⟩ := h.tab.hm y hy
      rw [hyi, h1] at k1; cases k1
      have := h.bits y hy
      show (⟨o.mt.place, if o.mt.freq < 1 then o.mt.freq + 1 else o.mt.freq⟩ : Meta) = _
      rw [k3]
      by_cases e : y.cnt < 1
      · simp only [e, if_true]; congr 1; omega
      · simp only [e, if_false]; congr 1; omega

/-- `find` with update of an object that is not cached: a ghost is forgotten and the time is remembered. -/
theorem Abs.find_miss (h : Abs z a s) (r : Req) (hr : r.id ∉ a.contents.ids) :
    ∃ s', find s r true = .ok (false, s') ∧ Abs z { a with ghosts := a.ghosts.filter (fun x => x.1 ≠ r.id) } s' ∧ s'.base.nReq = s.base.nReq ∧
      s'.base.adm = s.base.adm ∧ s'.vtime = (if r.id ∈ a.ghosts.ids then (s.base.nReq : Int) else s.vtime) := by
  have hc : r.id ∉ ids a.fifo ∧ r.id ∉ ids (items a.main) := by
    have := hr
    simp only [Contents.ids, Queues.contents, sieve, Item.entry, List.map_append, List.map_map, List.mem_append, not_or] at this
    exact ⟨this.1, by simpa [ids, items] using this.2⟩
  cases e : s.base.lookup r.id with
  | none =>
    have hn := h.tab.notIn e
    simp only [allIds, List.mem_append, not_or] at hn
    have hf : a.ghosts.filter (fun x => x.1 ≠ r.id) = a.ghosts := by
      rw [List.filter_eq_self]
      intro x hx
      simp only [ne_eq, decide_not, Bool.not_eq_eq_eq_not, Bool.not_true, decide_eq_false_iff_not]
      intro hxe
      exact hn.2.2 (by rw [← hxe]; exact List.mem_map_of_mem hx)
    refine ⟨s, by simp [find, findBase_miss e], ?_, rfl, rfl, by rw [if_neg hn.2.2]⟩
    rw [hf]; exact h
  | some o =>
    rcases h.tab.found e with ⟨x, hx, hid, _, hm⟩ | ⟨x, hx, hid, _, hm⟩ | ⟨x, hx, hid, _, hm⟩
    · exact absurd (by rw [← hid]; exact List.mem_map_of_mem hx) hc.1
    · exact absurd (by rw [← hid]; exact List.mem_map_of_mem hx) hc.2
    · have hg : r.id ∈ a.ghosts.ids := by rw [← hid]; exact List.mem_map_of_mem hx
      have hlk : (s.base.modify r.id (Verif.touch r)).lookup r.id = some (Verif.touch r o) := lookup_modify_self (fun _ => rfl) e
      have h0 := (h.touch r).frame s.base.nReq s.base.adm s.base.nReq
      obtain ⟨s', k1, k2, k3, k4, k5⟩ := h0.dropGhost hx (o := Verif.touch r o) (by rw [hid]; exact hlk)
      refine ⟨s', ?_, ?_, k3, k4, ?_⟩
      · simp only [find, findBase_hit' e, Bool.true_eq_false, if_false]
        rw [show (Verif.touch r o).mt.place = .ghost from hm]
        show (removeObj { s with base := s.base.modify r.id (Verif.touch r), vtime := s.base.nReq } (Verif.touch r o) >>= fun s' => .ok (false, s')) = _
        have : ({ s with base := s.base.modify r.id (Verif.touch r), vtime := s.base.nReq } : State) =
          { ({ s with base := s.base.modify r.id (Verif.touch r) } : State) with base := { (s.base.modify r.id (Verif.touch r)) with nReq := s.base.nReq, adm := s.base.adm }, vtime := s.base.nReq } := rfl
        rw [this, k1]; rfl
      · rw [hid] at k2; exact k2
      · rw [k5, if_pos hg]

theorem Abs.insert (h : Abs z a s) (r : Req) (hr : r.size % u32 + z.md < u32) (hn : r.id ∉ allIds a) :
    ∃ s', insert s r = .ok s' ∧ Abs z (QuickDemotion.insert a r (decide ((s.base.nReq : Int) = s.vtime))) s' ∧
      s'.base.nReq = s.base.nReq ∧ s'.base.adm = s.base.adm ∧ s'.vtime = s.vtime := by
  have hl := h.tab.lookup_none hn
  simp only [allIds, List.mem_append, not_or] at hn
  have ho : ∀ p : Place, QDLPv0.osz s (Obj.ofReq ⟨p, 0⟩ r) = (r.size % u32 + z.md : Nat) := by
    intro p
    rw [QDLPv0.osz, h.tab.mdz]
    show (((r.size % u32 + z.md) % u32 : Nat) : Int) = _
    rw [Nat.mod_eq_of_lt hr]
  have hob : ∀ p : Place, (s.base.insertBase ⟨p, 0⟩ r).occ = s.base.occ + ((r.size % u32 : Nat) + z.md : Int) := by
    intro p; rw [← h.tab.mdz]; rfl
  by_cases e : (s.base.nReq : Int) = s.vtime
  · have hq : r.id ∉ s.clock := by
      rw [← List.mem_reverse, h.qm]; exact hn.2.1
    have ei : items ⟨a.main.passed, a.main.ahead ++ [⟨r.id, r.size % u32, 0⟩]⟩ = items a.main ++ [⟨r.id, r.size % u32, 0⟩] := by simp [items]
    refine ⟨{ s with base := s.base.insertBase ⟨.clock, 0⟩ r, clock := r.id :: s.clock, nClockObj := s.nClockObj + 1, nClockByte := s.nClockByte + QDLPv0.osz s (Obj.ofReq ⟨.clock, 0⟩ r) },
      by simp only [QDLPv0.insert, if_pos e, qPrepend, if_neg hq, Res.bind_ok], ?_, rfl, rfl, rfl⟩
    rw [decide_eq_true e]
    show Abs z { a with main := ⟨a.main.passed, a.main.ahead ++ [⟨r.id, r.size % u32, 0⟩]⟩ } _
    refine ⟨?_, h.qf, ?_, h.qg, ?_, h.bf, ?_, ?_, h.bg, ?_, ?_, ?_, h.fs, h.ms, h.gs⟩
    · refine h.tab.insert .clock r hr hl ?_ (fun x hx => Or.inl hx) ?_ rfl
      · simp only [allIds, ei, ids, List.map_append, List.map_cons, List.map_nil]
        have : (List.map Item.id a.fifo ++ (List.map Item.id (items a.main) ++ [r.id] ++ a.ghosts.ids)) =
          (List.map Item.id a.fifo ++ List.map Item.id (items a.main)) ++ r.id :: a.ghosts.ids := by simp
        rw [this]
        refine List.perm_middle.trans ?_
        rw [List.append_assoc]
      · rw [ei]
        intro x hx
        rcases List.mem_append.1 hx with hx | hx
        · exact Or.inl hx
        · exact Or.inr ⟨rfl, by simpa using hx⟩
    · show (r.id :: s.clock).reverse = _
      rw [ei, List.reverse_cons, h.qm]; simp [ids]
    · rcases h.hand with h1 | ⟨x, l, h1, h2⟩
      · exact Or.inl h1
      · exact Or.inr ⟨x, l ++ [⟨r.id, r.size % u32, 0⟩], by show a.main.ahead ++ _ = _; rw [h1]; rfl, h2⟩
    · show s.nClockObj + 1 = _; rw [ei, h.cm]; simp
    · show s.nClockByte + QDLPv0.osz s _ = _
      rw [ho, ei, h.bm, List.map_append, charge_append]; simp [charge, Item.entry]
    · show (s.base.insertBase _ r).occ = _
      rw [hob, ei, h.occ, List.map_append, charge_append]; simp [charge, Item.entry]; omega
    · show s.base.nObj + 1 = _
      rw [ei, h.nObj]; simp; omega
    · rw [ei]
      intro x hx
      rcases List.mem_append.1 hx with hx | hx
      · exact h.bits x hx
      · have : x = ⟨r.id, r.size % u32, 0⟩ := by simpa using hx
        rw [this]; exact Nat.zero_le 1
  · have hq : r.id ∉ s.fifo := by rw [h.qf]; exact hn.1
    refine ⟨{ s with base := s.base.insertBase ⟨.fifo, 0⟩ r, fifo := r.id :: s.fifo, nFifoByte := s.nFifoByte + QDLPv0.osz s (Obj.ofReq ⟨.fifo, 0⟩ r) },
      by simp only [QDLPv0.insert, if_neg e, qPrepend, if_neg hq, Res.bind_ok], ?_, rfl, rfl, rfl⟩
    rw [decide_eq_false e]
    show Abs z { a with fifo := ⟨r.id, r.size % u32, 0⟩ :: a.fifo } _
    refine ⟨?_, ?_, h.qm, h.qg, h.hand, ?_, h.cm, h.bm, h.bg, ?_, ?_, h.bits, h.fs, h.ms, h.gs⟩
    · refine h.tab.insert .fifo r hr hl (List.Perm.refl _) ?_ (fun x hx => Or.inl hx) rfl
      intro x hx
      rcases List.mem_cons.1 hx with hx | hx
      · exact Or.inr ⟨rfl, hx⟩
      · exact Or.inl hx
    · show r.id :: s.fifo = _; rw [h.qf]; rfl
    · show s.nFifoByte + QDLPv0.osz s _ = _
      rw [ho, h.bf]; simp [charge, Item.entry]; omega
    · show (s.base.insertBase _ r).occ = _
      rw [hob, h.occ]; simp [charge, Item.entry]; omega
    · show s.base.nObj + 1 = _
      rw [h.nObj]; simp; omega

end
end Verif.QDLPv0
