import Verif.Algo.Rank
import Verif.Spec.Rank
import Verif.Proof.SingleBase
import Verif.Proof.View
/-!
# Rank-based eviction: proofs
-/

namespace Verif.Rank
open Verif Spec Spec.Ranked
variable {P : Type} [LinearOrder P]

/-- The set order as a proposition. -/
theorem Node.lt_iff (a b : Node P) : a.lt b = true ↔ a.pri < b.pri ∨ (a.pri = b.pri ∧ a.vt < b.vt) := by
  unfold Node.lt
  by_cases h : a.pri = b.pri
  · simp only [h, if_true, decide_eq_true_eq, lt_irrefl, true_and, false_or]
  · simp [h]

theorem Node.lt_trans {a b c : Node P} (h1 : a.lt b = true) (h2 : b.lt c = true) : a.lt c = true := by
  rw [Node.lt_iff] at *
  rcases h1 with h1 | ⟨h1, h1'⟩
  · rcases h2 with h2 | ⟨h2, _⟩
    · exact Or.inl (_root_.lt_trans h1 h2)
    · exact Or.inl (h2 ▸ h1)
  · rcases h2 with h2 | ⟨h2, h2'⟩
    · exact Or.inl (h1 ▸ h2)
    · exact Or.inr ⟨h1.trans h2, by omega⟩

theorem Node.lt_total {a b : Node P} (h : a.vt ≠ b.vt) (hn : ¬ a.lt b = true) : b.lt a = true := by
  rw [Node.lt_iff] at *
  rcases lt_trichotomy a.pri b.pri with h1 | h1 | h1
  · exact absurd (Or.inl h1) hn
  · refine Or.inr ⟨h1.symm, ?_⟩
    have : ¬ a.vt < b.vt := fun e => hn (Or.inr ⟨h1, e⟩)
    omega
  · exact Or.inl h1

/-- With a time stamp not yet in the set, `emplace` inserts. -/
theorem emplace_fresh {n : Node P} {l : List (Node P)} (h : ∀ m ∈ l, m.vt ≠ n.vt) :
    (emplace n l).1 = n ∧ (emplace n l).2.Perm (n :: l) := by
  induction l with
  | nil => simp [emplace]
  | cons m l ih =>
    simp only [emplace]
    by_cases h1 : n.lt m = true
    · rw [if_pos h1]; exact ⟨rfl, List.Perm.refl _⟩
    · have h2 : m.lt n = true := Node.lt_total (fun e => h m (by simp) e.symm) h1
      rw [if_neg h1, if_pos h2]
      obtain ⟨i1, i2⟩ := ih (fun m hm => h m (by simp [hm]))
      exact ⟨i1, (i2.cons m).trans (List.Perm.swap _ _ _)⟩

theorem emplace_sorted {n : Node P} {l : List (Node P)} (h : ∀ m ∈ l, m.vt ≠ n.vt) (hs : l.Pairwise (fun a b => a.lt b = true)) :
    (emplace n l).2.Pairwise (fun a b => a.lt b = true) := by
  induction l with
  | nil => simp [emplace]
  | cons m l ih =>
    have hs' := List.pairwise_cons.1 hs
    simp only [emplace]
    by_cases h1 : n.lt m = true
    · rw [if_pos h1]
      refine List.pairwise_cons.2 ⟨?_, hs⟩
      intro x hx
      rcases List.mem_cons.1 hx with rfl | hx
      · exact h1
      · exact Node.lt_trans h1 (hs'.1 x hx)
    · have h2 : m.lt n = true := Node.lt_total (fun e => h m (by simp) e.symm) h1
      rw [if_neg h1, if_pos h2]
      have hl : ∀ m ∈ l, m.vt ≠ n.vt := fun m hm => h m (by simp [hm])
      refine List.pairwise_cons.2 ⟨?_, ih hl hs'.2⟩
      intro x hx
      rcases List.mem_cons.1 ((emplace_fresh hl).2.subset hx) with rfl | hx
      · exact h2
      · exact hs'.1 x hx

/-- What holds between calls. -/
structure Inv (cs md : Nat) (s : State P) : Prop where
  b : BInv cs md s.base
  ids : (s.pq.map Node.id).Perm (s.base.tbl.map (·.id))
  sorted : s.pq.Pairwise (fun a b => a.lt b = true)
  vts : (s.pq.map Node.vt).Nodup
  le : ∀ n ∈ s.pq, n.vt ≤ s.base.nReq
  itr : ∀ n ∈ s.pq, s.itr n.id = some n

/-- No node carries the current request number yet. -/
def New (s : State P) : Prop := ∀ n ∈ s.pq, n.vt < s.base.nReq

/-- A set node with the object it points to. -/
def ent (b : Base Nat) (n : Node P) : Entry P :=
  match b.lookup n.id with
  | some o => ⟨n.id, o.size, o.mt, n.pri, n.vt⟩
  | none => ⟨n.id, 0, 0, n.pri, n.vt⟩

/-- The cached objects with their ranks. -/
def entries (s : State P) : List (Entry P) := s.pq.map (ent s.base)

theorem ent_congr {b b' : Base Nat} {n : Node P} (h : b'.lookup n.id = b.lookup n.id) : ent b' n = ent b n := by
  unfold ent; rw [h]

variable {cs md : Nat} {s : State P}

theorem Inv.idsNodup (h : Inv cs md s) : (s.pq.map Node.id).Nodup := h.ids.nodup_iff.2 h.b.inv.nodup

theorem Inv.length (h : Inv cs md s) : s.pq.length = s.base.tbl.length := by
  have := h.ids.length_eq; simpa using this

/-- The node of a cached object. -/
theorem Inv.node (h : Inv cs md s) {id : ObjId} {o : Obj Nat} (ho : s.base.lookup id = some o) :
    ∃ n, n ∈ s.pq ∧ n.id = id ∧ s.itr id = some n ∧ s.pq.Perm (n :: s.pq.erase n) ∧ eraseItr s id = .ok (s.pq.erase n) := by
  obtain ⟨hm, hid⟩ := lookup_some_mem ho
  obtain ⟨n, hn, e⟩ := List.mem_map.1 (h.ids.symm.subset (List.mem_map.2 ⟨o, hm, hid⟩))
  have hi : s.itr id = some n := by rw [← e]; exact h.itr n hn
  refine ⟨n, hn, e, hi, List.perm_cons_erase hn, ?_⟩
  unfold eraseItr
  simp only [hi, if_pos hn]

theorem Inv.obj (h : Inv cs md s) {n : Node P} (hn : n ∈ s.pq) : ∃ o, s.base.lookup n.id = some o := by
  rw [← mem_ids_iff_exists]
  exact h.ids.subset (List.mem_map.2 ⟨n, hn, rfl⟩)

theorem Inv.frame (h : Inv cs md s) (n : Nat) (a : Adm) (hn : s.base.nReq ≤ n) :
    Inv cs md { s with base := { s.base with nReq := n, adm := a } } :=
  ⟨⟨⟨h.b.inv.nodup, h.b.inv.occ_eq, h.b.inv.nObj_eq, h.b.inv.cap, h.b.inv.small⟩, h.b.cs, h.b.md⟩, h.ids, h.sorted, h.vts,
    fun m hm => Nat.le_trans (h.le m hm) hn, h.itr⟩

theorem New.bump (h : Inv cs md s) (R : Scoring P) (l : Bool) : New ((algo R l).bump s) := by
  intro n hn
  have := h.le n hn
  show n.vt < s.base.nReq + 1
  omega

/-- Nodes other than those of `id`. -/
theorem notMem_erase_id (hn : (s.pq.map Node.id).Nodup) {n m : Node P} (hm : n ∈ s.pq) (h : m ∈ s.pq.erase n) : m.id ≠ n.id := by
  have hp := (List.perm_cons_erase hm).map Node.id
  have := hp.nodup_iff.1 hn
  rw [List.map_cons, List.nodup_cons] at this
  intro e
  exact this.1 (List.mem_map.2 ⟨m, h, e⟩)

/-- A hit. -/
theorem find_hit (R : Scoring P) (h : Inv cs md s) (hw : New s) (r : Req) {o : Obj Nat} (ho : s.base.lookup r.id = some o) :
    ∃ s' e rest, find R s r true = .ok (true, s') ∧ Inv cs md s' ∧ s'.base.cached = s.base.cached ∧ s'.infl = s.infl ∧
      (entries s).Perm (e :: rest) ∧ e.id = r.id ∧
      (entries s').Perm ({ e with freq := e.freq + 1, pri := R.score s.infl (e.freq + 1) e.size, stamp := s.base.nReq } :: rest) := by
  obtain ⟨n, hn, hid, hi, hp, he⟩ := h.node ho
  have ht1 : ∀ x : Obj Nat, (touch r x).id = x.id := fun _ => rfl
  have hl1 : (s.base.modify r.id (touch r)).lookup r.id = some (touch r o) := lookup_modify_self ht1 ho
  let g : Obj Nat → Obj Nat := fun o => { o with mt := o.mt + 1 }
  have hg : ∀ x : Obj Nat, (g x).id = x.id := fun _ => rfl
  let b' := (s.base.modify r.id (touch r)).modify r.id g
  have hl2 : b'.lookup r.id = some (g (touch r o)) := lookup_modify_self hg hl1
  have hln : ∀ x, x ≠ r.id → b'.lookup x = s.base.lookup x := fun x hx => by
    rw [show b'.lookup x = _ from lookup_modify_ne hg hx, lookup_modify_ne ht1 hx]
  have hb : BInv cs md b' := (h.b.modify r.id (touch r) ht1 (fun _ => rfl)).modify r.id g hg (fun _ => rfl)
  have hc : b'.cached = s.base.cached := by
    rw [show b'.cached = _ from Base.cached_modify _ r.id g hg (fun _ => rfl), Base.cached_modify _ r.id (touch r) ht1 (fun _ => rfl)]
  have hids : b'.tbl.map (·.id) = s.base.tbl.map (·.id) := by
    rw [show b'.tbl.map (·.id) = _ from Base.ids_modify _ r.id g hg, Base.ids_modify _ r.id (touch r) ht1]
  let n' : Node P := ⟨r.id, R.score s.infl (o.mt + 1) o.size, s.base.nReq⟩
  let q := s.pq.erase n
  have hq : ∀ m ∈ q, m ∈ s.pq := fun m hm => List.mem_of_mem_erase hm
  have hf : ∀ m ∈ q, m.vt ≠ n'.vt := fun m hm => Nat.ne_of_lt (hw m (hq m hm))
  have hne : ∀ m ∈ q, m.id ≠ r.id := fun m hm => by rw [← hid]; exact notMem_erase_id h.idsNodup hn hm
  obtain ⟨e1, e2⟩ := emplace_fresh (n := n') (l := q) hf
  let s' : State P := { s with base := b', pq := (emplace n' q).2, itr := fun x => if x = r.id then some (emplace n' q).1 else s.itr x }
  refine ⟨s', ent s.base n, q.map (ent s.base), ?_, ⟨hb, ?_, ?_, ?_, ?_, ?_⟩, hc, rfl, ?_, ?_, ?_⟩
  · unfold find
    rw [findBase_hit ho]
    simp only [if_true, he, Res.bind_ok]
    rfl
  · show ((emplace n' q).2.map Node.id).Perm (b'.tbl.map (·.id))
    rw [hids]
    refine (e2.map _).trans (List.Perm.trans ?_ h.ids)
    have := (hp.map Node.id).symm
    rw [List.map_cons, hid] at this
    exact this
  · exact emplace_sorted hf (h.sorted.sublist List.erase_sublist)
  · refine (e2.map Node.vt).nodup_iff.2 ?_
    rw [List.map_cons, List.nodup_cons]
    refine ⟨fun hm => ?_, ?_⟩
    · obtain ⟨m, hm, e⟩ := List.mem_map.1 hm; exact hf m hm e
    · exact (h.vts).sublist (List.erase_sublist.map _)
  · intro m hm
    rcases List.mem_cons.1 (e2.subset hm) with rfl | hm
    · exact Nat.le_refl _
    · exact h.le m (hq m hm)
  · intro m hm
    show (if m.id = r.id then some (emplace n' q).1 else s.itr m.id) = some m
    rcases List.mem_cons.1 (e2.subset hm) with rfl | hm
    · rw [if_pos rfl, e1]
    · rw [if_neg (hne m hm)]; exact h.itr m (hq m hm)
  · exact (hp.map _)
  · unfold ent; split <;> exact hid
  · show ((emplace n' q).2.map (ent b')).Perm _
    refine (e2.map _).trans ?_
    rw [List.map_cons]
    have a1 : ent b' n' = { ent s.base n with freq := (ent s.base n).freq + 1, pri := R.score s.infl ((ent s.base n).freq + 1) (ent s.base n).size, stamp := s.base.nReq } := by
      have x1 : ent s.base n = ⟨n.id, o.size, o.mt, n.pri, n.vt⟩ := by
        have : s.base.lookup n.id = some o := by rw [hid]; exact ho
        unfold ent; rw [this]
      have x2 : ent b' n' = ⟨r.id, (g (touch r o)).size, (g (touch r o)).mt, n'.pri, n'.vt⟩ := by
        have : b'.lookup n'.id = some (g (touch r o)) := hl2
        unfold ent; rw [this]
      rw [x1, x2, ← hid]; rfl
    have a2 : q.map (ent b') = q.map (ent s.base) := List.map_congr_left (fun m hm => ent_congr (hln _ (hne m hm)))
    rw [a1, a2]

theorem find_miss (R : Scoring P) (r : Req) (u : Bool) (ho : s.base.lookup r.id = none) : find R s r u = .ok (false, s) := by
  unfold find; rw [findBase_miss ho]

theorem find_false (R : Scoring P) (r : Req) : find R s r false = .ok ((s.base.lookup r.id).isSome, s) := by
  unfold find
  rw [findBase_false]
  cases h : s.base.lookup r.id with
  | none => rfl
  | some o => rfl

/-- An eviction. -/
theorem evict_spec (R : Scoring P) (h : Inv cs md s) (hne : s.base.tbl ≠ []) :
    ∃ s' v, evict R s = .ok s' ∧ Inv cs md s' ∧ (New s → New s') ∧ s'.base.adm = s.base.adm ∧ s'.base.nReq = s.base.nReq ∧
      s.base.cached.Perm ((v.id, v.size) :: s'.base.cached) ∧ s'.base.tbl.length < s.base.tbl.length ∧
      First v (entries s) ∧ entries s = v :: entries s' ∧
      s'.infl = if R.ages then v.pri else s.infl := by
  cases hq : s.pq with
  | nil =>
    have := h.length; rw [hq] at this
    exact absurd (List.length_eq_zero_iff.1 this.symm) hne
  | cons n q =>
    have hn : n ∈ s.pq := by rw [hq]; simp
    obtain ⟨o, ho⟩ := h.obj hn
    obtain ⟨b', h1, h2, h3, h4, h5, h6, h7⟩ := h.b.remove ho
    have hid := (lookup_some_mem ho).2
    have hnd := h.idsNodup
    rw [hq, List.map_cons, List.nodup_cons] at hnd
    have hne' : ∀ m ∈ q, m.id ≠ n.id := fun m hm e => hnd.1 (List.mem_map.2 ⟨m, hm, e⟩)
    have x1 : ent s.base n = ⟨n.id, o.size, o.mt, n.pri, n.vt⟩ := by unfold ent; rw [ho]
    have hs := h.sorted
    rw [hq] at hs
    refine ⟨{ base := b', pq := q, itr := fun x => if x = n.id then none else s.itr x, infl := if R.ages then n.pri else s.infl },
      ent s.base n, ?_, ⟨h2, ?_, hs.tail, ?_, ?_, ?_⟩, ?_, h6, h7, ?_, ?_, ?_, ?_, ?_⟩
    · unfold evict; simp only [hq, h1, Res.bind_ok]
    · have e1 : (n.id :: q.map Node.id).Perm (s.base.tbl.map (·.id)) := by have := h.ids; rwa [hq] at this
      have e2 := h4.map (·.id)
      rw [List.map_cons, hid] at e2
      exact (List.perm_cons _).1 (e1.trans e2)
    · have := h.vts; rw [hq, List.map_cons, List.nodup_cons] at this; exact this.2
    · intro m hm; rw [h7]; exact h.le m (by rw [hq]; simp [hm])
    · intro m hm
      show (if m.id = n.id then none else s.itr m.id) = some m
      rw [if_neg (hne' m hm)]; exact h.itr m (by rw [hq]; simp [hm])
    · intro hw m hm; rw [h7]; exact hw m (by rw [hq]; simp [hm])
    · rw [x1, ← hid]; exact h5
    · have := h4.length_eq; simp only [List.length_cons] at this; show b'.tbl.length < _; omega
    · refine ⟨by simp [entries, hq], ?_⟩
      intro y hy
      unfold entries at hy
      rw [hq, List.map_cons] at hy
      rcases List.mem_cons.1 hy with rfl | hy
      · exact Or.inr ⟨rfl, Nat.le_refl _⟩
      · obtain ⟨m, hm, rfl⟩ := List.mem_map.1 hy
        have := (Node.lt_iff _ _).1 ((List.pairwise_cons.1 hs).1 m hm)
        have p1 : ∀ k : Node P, (ent s.base k).pri = k.pri := fun k => by unfold ent; split <;> rfl
        have p2 : ∀ k : Node P, (ent s.base k).stamp = k.vt := fun k => by unfold ent; split <;> rfl
        rw [p1, p1, p2, p2]
        rcases this with h | ⟨h, h'⟩
        · exact Or.inl h
        · exact Or.inr ⟨h, Nat.le_of_lt h'⟩
    · unfold entries
      rw [hq, List.map_cons]
      congr 1
      exact List.map_congr_left (fun m hm => (ent_congr (lookup_eraseP_ne h3 (hne' m hm))).symm)
    · rw [x1]

/-- An insertion. -/
theorem insert_spec (R : Scoring P) (h : Inv cs md s) (hw : New s) (r : Req) (hn : s.base.lookup r.id = none)
    (hroom : s.base.occ + r.size + md ≤ cs) (hok : SizeOk md r) :
    ∃ s', insert R s r = .ok s' ∧ Inv cs md s' ∧ s'.base.cached = (r.id, r.size % u32) :: s.base.cached ∧ s'.infl = s.infl ∧
      (entries s').Perm (⟨r.id, r.size % u32, 1, R.score s.infl 1 (r.size % u32), s.base.nReq⟩ :: entries s) := by
  let n' : Node P := ⟨r.id, R.score s.infl 1 (r.size % u32), s.base.nReq⟩
  have hf : ∀ m ∈ s.pq, m.vt ≠ n'.vt := fun m hm => Nat.ne_of_lt (hw m hm)
  obtain ⟨e1, e2⟩ := emplace_fresh (n := n') (l := s.pq) hf
  have hne : ∀ m ∈ s.pq, m.id ≠ r.id := fun m hm e => by
    obtain ⟨o, ho⟩ := h.obj hm
    rw [e, hn] at ho; cases ho
  have hc : r.id ∉ s.base.cached.map Prod.fst := lookup_none_iff'.1 hn
  refine ⟨_, rfl, ⟨h.b.insert 1 r hc hroom hok, ?_, ?_, ?_, ?_, ?_⟩, cached_insertBase _ _ _, rfl, ?_⟩
  · show ((emplace n' s.pq).2.map Node.id).Perm ((s.base.insertBase 1 r).tbl.map (·.id))
    refine (e2.map _).trans ?_
    simp only [List.map_cons, Base.insertBase, Obj.ofReq]
    exact h.ids.cons _
  · exact emplace_sorted hf h.sorted
  · refine (e2.map Node.vt).nodup_iff.2 ?_
    rw [List.map_cons, List.nodup_cons]
    refine ⟨fun hm => ?_, h.vts⟩
    obtain ⟨m, hm, e⟩ := List.mem_map.1 hm; exact hf m hm e
  · intro m hm
    rcases List.mem_cons.1 (e2.subset hm) with rfl | hm
    · exact Nat.le_refl _
    · exact h.le m hm
  · intro m hm
    show (if m.id = r.id then some (emplace n' s.pq).1 else s.itr m.id) = some m
    rcases List.mem_cons.1 (e2.subset hm) with rfl | hm
    · rw [if_pos rfl, e1]
    · rw [if_neg (hne m hm)]; exact h.itr m hm
  · show ((emplace n' s.pq).2.map (ent (s.base.insertBase 1 r))).Perm _
    refine (e2.map _).trans ?_
    rw [List.map_cons]
    have a1 : ent (s.base.insertBase 1 r) n' = ⟨r.id, r.size % u32, 1, n'.pri, n'.vt⟩ := by
      have : (s.base.insertBase 1 r).lookup n'.id = some (Obj.ofReq 1 r) := by rw [lookup_insertBase, if_pos rfl]
      unfold ent; rw [this]; rfl
    have a2 : s.pq.map (ent (s.base.insertBase 1 r)) = entries s :=
      List.map_congr_left (fun m hm => ent_congr (by rw [lookup_insertBase, if_neg (hne m hm)]))
    rw [a1, a2]

/-- `abstractRank::remove`. -/
theorem remove_hit (h : Inv cs md s) (id : ObjId) {o : Obj Nat} (ho : s.base.lookup id = some o) :
    ∃ s' e, removeRank s id = .ok (true, s') ∧ Inv cs md s' ∧ s.base.cached.Perm ((o.id, o.size) :: s'.base.cached) ∧
      s'.infl = s.infl ∧ e.id = id ∧ (entries s).Perm (e :: entries s') := by
  obtain ⟨n, hn, hid, hi, hp, he⟩ := h.node ho
  obtain ⟨b', h1, h2, h3, h4, h5, h6, h7⟩ := h.b.remove ho
  have hoid := (lookup_some_mem ho).2
  have hq : ∀ m ∈ s.pq.erase n, m ∈ s.pq := fun m hm => List.mem_of_mem_erase hm
  have hne : ∀ m ∈ s.pq.erase n, m.id ≠ id := fun m hm => by rw [← hid]; exact notMem_erase_id h.idsNodup hn hm
  refine ⟨{ s with base := b', pq := s.pq.erase n, itr := fun x => if x = id then none else s.itr x }, ent s.base n, ?_,
    ⟨h2, ?_, h.sorted.sublist List.erase_sublist, h.vts.sublist (List.erase_sublist.map _), ?_, ?_⟩, h5, rfl, ?_, ?_⟩
  · unfold removeRank; simp only [ho, he, h1, Res.bind_ok]
  · have e1 := (hp.map Node.id).symm.trans h.ids
    rw [List.map_cons, hid] at e1
    have e2 := h4.map (·.id)
    rw [List.map_cons, hoid] at e2
    exact (List.perm_cons _).1 (e1.trans e2)
  · intro m hm; rw [h7]; exact h.le m (hq m hm)
  · intro m hm
    show (if m.id = id then none else s.itr m.id) = some m
    rw [if_neg (hne m hm)]; exact h.itr m (hq m hm)
  · unfold ent; split <;> exact hid
  · refine (hp.map _).trans ?_
    rw [List.map_cons]
    have : (s.pq.erase n).map (ent s.base) = (s.pq.erase n).map (ent b') :=
      List.map_congr_left (fun m hm => (ent_congr (lookup_eraseP_ne h3 (hne m hm))).symm)
    rw [this]; exact List.Perm.refl _

theorem remove_miss (id : ObjId) (ho : s.base.lookup id = none) : removeRank s id = .ok (false, s) := by
  unfold removeRank; rw [ho]

theorem removeFull (h : Inv cs md s) (id : ObjId) :
    ∃ s', removeRank s id = .ok (decide (id ∈ s.base.cached.ids), s') ∧ Inv cs md s' ∧
      s'.base.cached.Perm (s.base.cached.filter (fun x => x.1 ≠ id)) := by
  cases ho : s.base.lookup id with
  | none =>
    have hn := lookup_none_iff'.1 ho
    refine ⟨s, by rw [remove_miss id ho]; simp [Contents.ids, hn], h, ?_⟩
    rw [filter_ids_eq hn]
  | some o =>
    obtain ⟨s', _, h1, h2, h3, _⟩ := remove_hit h id ho
    obtain ⟨hm, hid⟩ := lookup_some_mem ho
    have hin : id ∈ s.base.cached.ids := by
      rw [Contents.ids, map_id_eq]; exact List.mem_map.2 ⟨o, hm, hid⟩
    refine ⟨s', by rw [h1]; simp [hin], h2, ?_⟩
    have hn : s.base.cached.ids.Nodup := by rw [Contents.ids, map_id_eq]; exact h.b.inv.nodup
    have := filter_cons_self hn h3
    rw [hid] at this
    exact this

theorem inv_init (R : Scoring P) (cs md : Nat) (adm : Adm) : Inv cs md (init R cs md adm) :=
  ⟨⟨baseInv_init _ _ _, rfl, rfl⟩, by simp [init, Base.init], by simp [init], by simp [init], by simp [init], by simp [init]⟩

/-- Calls for which the caches work: no `find` with update and no `insert` from outside a `get`, and for LFUCpp no `remove`. -/
abbrev perms (lfu : Bool) : Perms := { upd := false, ins := false, rem := !lfu }

/-- Ready to insert: the object fits into the cache and the request has not yet given its number to a node. -/
def Ready (cs md : Nat) (s : State P) (r : Req) : Prop := r.size + md ≤ cs ∧ New s

/-- Everything but the request counter and the admission policy's state. -/
def core (s : State P) : List (Obj Nat) × Int × Int × List (Node P) × (ObjId → Option (Node P)) × P :=
  (s.base.tbl, s.base.occ, s.base.nObj, s.pq, s.itr, s.infl)

theorem tbl_ne_of_mustEvict (R : Scoring P) (lfu : Bool) (h : Inv cs md s) {r : Req} (hr : r.size + md ≤ cs)
    (hme : (algo R lfu).mustEvict s r = true) : s.base.tbl ≠ [] := by
  intro h0
  simp only [Algo.mustEvict, decide_eq_true_eq] at hme
  simp only [algo] at hme
  rw [h.b.inv.occ_eq, h.b.cs, h.b.md] at hme
  simp only [Base.cached, h0, List.map_nil, charge] at hme
  omega

theorem room_of_not_mustEvict (R : Scoring P) (lfu : Bool) (h : Inv cs md s) {r : Req}
    (hme : (algo R lfu).mustEvict s r = false) : s.base.occ + r.size + md ≤ cs := by
  simp only [Algo.mustEvict, decide_eq_false_iff_not, Int.not_lt] at hme
  simp only [algo] at hme
  rw [h.b.cs, h.b.md] at hme
  omega

theorem fresh_new (R : Scoring P) (lfu : Bool) {ok : Req → Prop} {r : Req} (h : Fresh (algo R lfu) (Inv cs md) (perms lfu) ok r s) : New s := by
  rcases h with h | ⟨_, s0, h0, rfl⟩
  · cases h
  · exact New.bump h0 R lfu

theorem strong (R : Scoring P) (lfu : Bool) (cs md : Nat) :
    Strong (algo R lfu) (fun s => s.base.cached) (Inv cs md) (Ready cs md) (fun s => s.base.tbl.length) cs md (perms lfu) (SizeOk md)
      (fun s r => admitsBase s.base r) core where
  csz := fun h => h.b.cs
  mdz := fun h => h.b.md
  nodup := fun h => by rw [Contents.ids, map_id_eq]; exact h.b.inv.nodup
  occ := fun {s} h => by show s.base.occ = _; rw [h.b.inv.occ_eq, h.b.md]
  nObj := fun {s} h => by show s.base.nObj = _; rw [h.b.inv.nObj_eq]; simp [Base.cached]
  cap := fun {s} h => by show s.base.occ ≤ _; have := h.b.inv.cap; rw [h.b.cs] at this; exact this
  bump := fun {s} h => ⟨h.frame (s.base.nReq + 1) s.base.adm (by omega), rfl⟩
  findF := fun _ {s} r h => by show find R s r false = _; rw [find_false, lookup_isSome_iff]
  findHit := fun {s} r h hin hf => by
    have : (s.base.lookup r.id).isSome = true := by rw [lookup_isSome_iff]; simpa using hin
    obtain ⟨o, ho⟩ := Option.isSome_iff_exists.1 this
    obtain ⟨s', _, _, h1, h2, h3, _⟩ := find_hit R h (fresh_new R lfu hf) r ho
    exact ⟨s', h1, h2, by simp only [h3]; exact List.Subperm.refl _⟩
  findMiss := fun {s} r h hn hf => by
    have hl := lookup_none_iff'.2 hn
    refine ⟨s, find_miss R r true hl, h, List.Perm.refl _, ?_⟩
    have hfr := h.frame s.base.nReq (s.base.adm.admit r).2 (Nat.le_refl _)
    simp only [algo, canInsertDefault_eq]
    refine ⟨hfr, List.Perm.refl _, ?_⟩
    intro ha _
    simp only [admitsBase, Bool.and_eq_true, decide_eq_true_eq] at ha
    rw [h.b.md, h.b.cs] at ha
    exact ⟨ha.2, fun n hn => fresh_new R lfu hf n hn⟩
  fuel := fun {s} _ => Nat.le_succ _
  evictLoop := fun {s} r h hok hr _ hme => by
    obtain ⟨s', v, h1, h2, h3, _, _, h4, h5, _⟩ := evict_spec R h (tbl_ne_of_mustEvict R lfu h hr.1 hme)
    exact ⟨s', h1, h2, ⟨hr.1, h3 hr.2⟩, (List.Sublist.subperm (List.sublist_cons_self _ _)).trans h4.symm.subperm, h5⟩
  insert := fun {s} r h hok hr hn hme => by
    obtain ⟨s', h1, h2, h3, _⟩ := insert_spec R h hr.2 r (lookup_none_iff'.2 hn) (room_of_not_mustEvict R lfu h hme) hok
    exact ⟨s', h1, h2, by simp only [h3]; exact List.Subperm.refl _⟩
  userInsert := fun hp => by cases hp
  remove := fun hp {s} id h => by
    cases lfu with
    | true => cases hp
    | false =>
      obtain ⟨s', h1, h2, h3⟩ := removeFull h id
      exact ⟨_, s', h1, h2, h3.subperm.trans List.filter_sublist.subperm⟩
  removeGone := fun hp {s s' b} id h he => by
    cases lfu with
    | true => cases hp
    | false =>
      obtain ⟨s'', h1, h2, h3⟩ := removeFull h id
      have he : removeRank s id = .ok (b, s') := he
      rw [h1] at he
      cases he
      intro hx
      obtain ⟨x, hx', rfl⟩ := List.mem_map.1 hx
      have := h3.subset hx'
      simp at this
  evict := fun _ {s} r h hne => by
    obtain ⟨s', v, h1, h2, _, _, _, h3, _⟩ := evict_spec R h (by intro h0; simp [Base.cached, h0] at hne)
    exact ⟨s', h1, h2, (List.Sublist.subperm (List.sublist_cons_self _ _)).trans h3.symm.subperm⟩
  hitPerm := fun {s s'} r h hf => by
    have hf : find R s r true = .ok (true, s') := hf
    cases ho : s.base.lookup r.id with
    | none => rw [find_miss R r true ho] at hf; cases hf
    | some o =>
      obtain ⟨n, _, _, _, _, he⟩ := h.node ho
      unfold find at hf
      rw [findBase_hit ho] at hf
      simp only [if_true, he, Res.bind_ok] at hf
      cases hf
      show (Base.cached (Base.modify (s.base.modify r.id (touch r)) r.id _)).Perm _
      rw [Base.cached_modify _ r.id (fun o => { o with mt := o.mt + 1 }) (fun _ => rfl) (fun _ => rfl),
        Base.cached_modify _ r.id (touch r) (fun _ => rfl) (fun _ => rfl)]
  missQuiet := fun {s} r h hn => find_miss R r true (lookup_none_iff'.2 hn)
  admitsEq := fun {s} r h => by
    simp only [algo, canInsertDefault_eq]; rfl
  coreEq := fun {s} r h => by
    simp only [algo, canInsertDefault_eq]; rfl
  evictAtMostOne := fun {s s'} r h hok hr hme he => by
    obtain ⟨s'', v, h1, _, _, _, _, h4, _⟩ := evict_spec R h (tbl_ne_of_mustEvict R lfu h hr.1 hme)
    have he : evict R s = .ok s' := he
    rw [h1] at he; cases he
    exact ⟨[(v.id, v.size)], by simp, h4⟩
  insertPerm := fun {s s'} r h hok hr hn hme hins => by
    obtain ⟨s'', h1, h2, h3, _⟩ := insert_spec R h hr.2 r (lookup_none_iff'.2 hn) (room_of_not_mustEvict R lfu h hme) hok
    have hins : insert R s r = .ok s' := hins
    rw [h1] at hins; cases hins; rw [h3]

/-! ### What one call does to the ranks -/

/-- The victims of the eviction loop. -/
theorem loop_ranks (R : Scoring P) (lfu : Bool) (r : Req) (hr : r.size + md ≤ cs) :
    ∀ (n : Nat) (s s' : State P), Inv cs md s → New s → (algo R lfu).evictLoop r n s = .ok s' →
      Inv cs md s' ∧ New s' ∧ s'.base.nReq = s.base.nReq ∧ (algo R lfu).mustEvict s' r = false ∧
      ∃ vs, Evicts (entries s) vs (entries s') ∧ s'.infl = if R.ages then inflation s.infl vs else s.infl := by
  intro n
  induction n with
  | zero =>
    intro s s' h hw he
    cases hme : (algo R lfu).mustEvict s r with
    | true => simp [Algo.evictLoop, hme] at he
    | false =>
      simp only [Algo.evictLoop, hme, Bool.false_eq_true, if_false] at he
      cases he
      exact ⟨h, hw, rfl, hme, [], List.Perm.refl _, by simp [inflation]⟩
  | succ n ih =>
    intro s s' h hw he
    cases hme : (algo R lfu).mustEvict s r with
    | false =>
      simp only [Algo.evictLoop, hme, Bool.false_eq_true, if_false] at he
      cases he
      exact ⟨h, hw, rfl, hme, [], List.Perm.refl _, by simp [inflation]⟩
    | true =>
      obtain ⟨s1, v, h1, h2, h3, _, h3', _, _, h4, h5, h6⟩ := evict_spec R h (tbl_ne_of_mustEvict R lfu h hr hme)
      have h1' : (algo R lfu).evict s r = .ok s1 := h1
      simp only [Algo.evictLoop, hme, if_true, h1', Res.bind_ok] at he
      obtain ⟨i1, i2, i3, i4, vs, i5, i6⟩ := ih s1 s' h2 (h3 hw) he
      refine ⟨i1, i2, i3.trans h3', i4, v :: vs, ⟨h4, entries s1, by rw [h5], i5⟩, ?_⟩
      rw [i6, h6]
      cases hA : R.ages with
      | false => simp
      | true =>
        simp only [if_true, inflation, List.map_cons]
        cases vs with
        | nil => simp
        | cons w ws => simp [List.getLast?_cons_cons]; exact rfl


theorem entries_base {s s' : State P} (h1 : s'.pq = s.pq) (h2 : s'.base.tbl = s.base.tbl) : entries s' = entries s := by
  unfold entries
  rw [h1]
  exact List.map_congr_left (fun m _ => ent_congr (by unfold Base.lookup; rw [h2]))

/-- A `get` of a cached object. -/
theorem get_hit_ranks (R : Scoring P) (lfu : Bool) (h : Inv cs md s) (r : Req) (hin : r.id ∈ s.base.cached.ids) :
    ∃ s' e rest, (algo R lfu).get s r = .ok (true, s') ∧ (entries s).Perm (e :: rest) ∧ e.id = r.id ∧ s'.infl = s.infl ∧
      (entries s').Perm ({ e with freq := e.freq + 1, pri := R.score s.infl (e.freq + 1) e.size, stamp := s.base.nReq + 1 } :: rest) := by
  obtain ⟨hb, _⟩ := (strong R lfu cs md).bump h
  have : (s.base.lookup r.id).isSome = true := by rw [lookup_isSome_iff]; simpa using hin
  obtain ⟨o, ho⟩ := Option.isSome_iff_exists.1 this
  obtain ⟨s', e, rest, h1, _, _, h4, h5, h6, h7⟩ := find_hit R hb (New.bump h R lfu) r ho
  refine ⟨s', e, rest, get_hit h1, ?_, h6, h4, h7⟩
  rw [← entries_base (s := s) (s' := (algo R lfu).bump s) rfl rfl]
  exact h5

/-- A `get` that is a miss and is admitted. -/
theorem get_miss_ranks (R : Scoring P) (lfu : Bool) (h : Inv cs md s) (r : Req) (hok : SizeOk md r) (hn : r.id ∉ s.base.cached.ids)
    (ha : admitsBase s.base r = true) :
    ∃ s' vs kept, (algo R lfu).get s r = .ok (false, s') ∧ Evicts (entries s) vs kept ∧
      (s'.infl = if R.ages then inflation s.infl vs else s.infl) ∧
      (entries s').Perm (⟨r.id, r.size % u32, 1, R.score s'.infl 1 (r.size % u32), s.base.nReq + 1⟩ :: kept) := by
  have C := strong R lfu cs md
  obtain ⟨hb, hbc⟩ := C.bump h
  have hnb : r.id ∉ ((algo R lfu).bump s).base.cached.ids := hn
  have hf : (algo R lfu).find ((algo R lfu).bump s) r true = .ok (false, (algo R lfu).bump s) := C.missQuiet r hb hnb
  obtain ⟨s1, hf1, _, _, hi2, hp2, hrd⟩ := C.findMiss r hb hnb (Fresh.bump hok h)
  rw [hf] at hf1; cases hf1
  have had := C.admitsEq r h
  have ha' : ((algo R lfu).canInsert ((algo R lfu).bump s) r).1 = true := had.trans ha
  have hrd' := hrd ha' hok
  let s2 := ((algo R lfu).canInsert ((algo R lfu).bump s) r).2
  have hcc : (algo R lfu).canInsert ((algo R lfu).bump s) r = (true, s2) := by rw [← ha']
  have hn2 : r.id ∉ s2.base.cached.ids := notMem_ids_of_subperm hp2.subperm hnb
  obtain ⟨s3, l1, _, _, l4, _⟩ := C.toContract.loop r hok ((algo R lfu).fuel s2) s2 hi2 hrd' hn2 (C.fuel hi2)
  obtain ⟨k1, k2, k3, k4, vs, k5, k6⟩ := loop_ranks R lfu r hrd'.1 _ s2 s3 hi2 hrd'.2 l1
  have hn3 : r.id ∉ s3.base.cached.ids := notMem_ids_of_subperm l4 hn2
  obtain ⟨s4, j1, _, _, j4, j5⟩ := insert_spec R k1 k2 r (lookup_none_iff'.2 hn3) (room_of_not_mustEvict R lfu k1 k4) hok
  have q1 : s2.pq = s.pq ∧ s2.base.tbl = s.base.tbl ∧ s2.infl = s.infl ∧ s2.base.nReq = s.base.nReq + 1 := by
    simp [s2, algo, canInsertDefault_eq, Base.bump]
  refine ⟨s4, vs, entries s3, get_accept hf hcc l1 j1, ?_, ?_, ?_⟩
  · rw [← entries_base q1.1 q1.2.1]; exact k5
  · rw [j4, k6, q1.2.2.1]
  · rw [j4, ← q1.2.2.2, ← k3]; exact j5

/-- A `get` that is a miss and is rejected. -/
theorem get_reject_ranks (R : Scoring P) (lfu : Bool) (h : Inv cs md s) (r : Req) (hn : r.id ∉ s.base.cached.ids)
    (ha : admitsBase s.base r = false) :
    ∃ s', (algo R lfu).get s r = .ok (false, s') ∧ entries s' = entries s ∧ s'.infl = s.infl := by
  have C := strong R lfu cs md
  obtain ⟨hb, hbc⟩ := C.bump h
  have hnb : r.id ∉ ((algo R lfu).bump s).base.cached.ids := hn
  have hf : (algo R lfu).find ((algo R lfu).bump s) r true = .ok (false, (algo R lfu).bump s) := C.missQuiet r hb hnb
  have ha' : ((algo R lfu).canInsert ((algo R lfu).bump s) r).1 = false := (C.admitsEq r h).trans ha
  let s2 := ((algo R lfu).canInsert ((algo R lfu).bump s) r).2
  have hcc : (algo R lfu).canInsert ((algo R lfu).bump s) r = (false, s2) := by rw [← ha']
  have q1 : s2.pq = s.pq ∧ s2.base.tbl = s.base.tbl ∧ s2.infl = s.infl := by
    simp [s2, algo, canInsertDefault_eq, Base.bump]
  exact ⟨s2, get_reject hf hcc, entries_base q1.1 q1.2.1, q1.2.2⟩

/-! ### A property of ranks that every call keeps -/

/-- What one permitted call does to the ranks and the inflation value. -/
def Change (R : Scoring P) (s s' : State P) : Prop :=
  (∃ vs kept, Evicts (entries s) vs kept ∧ (s'.infl = if R.ages then inflation s.infl vs else s.infl) ∧
    ((entries s').Perm kept ∨
      ∃ id n now, (entries s').Perm (⟨id, n, 1, R.score s'.infl 1 n, now⟩ :: kept))) ∨
  (s'.infl = s.infl ∧ ((∃ e, (entries s).Perm (e :: entries s')) ∨
    ∃ e rest now, (entries s).Perm (e :: rest) ∧ (entries s').Perm ({ e with freq := e.freq + 1, pri := R.score s.infl (e.freq + 1) e.size, stamp := now } :: rest)))

theorem step_change (R : Scoring P) (lfu : Bool) (h : Inv cs md s) {op : Op} (hop : Calls (perms lfu) (SizeOk md) op) {b : Bool} {s' : State P}
    (he : (algo R lfu).step s op = .ok (b, s')) : Change R s s' := by
  have same : entries s' = entries s → s'.infl = s.infl → Change R s s' := fun h1 h2 =>
    Or.inl ⟨[], entries s, List.Perm.refl _, by simp [inflation, h2], Or.inl (by rw [h1])⟩
  cases op with
  | get r =>
    have he : (algo R lfu).get s r = .ok (b, s') := he
    by_cases hin : r.id ∈ s.base.cached.ids
    · obtain ⟨s1, e, rest, h1, h2, h3, h4, h5⟩ := get_hit_ranks R lfu h r hin
      rw [h1] at he; cases he
      exact Or.inr ⟨h4, Or.inr ⟨e, rest, _, h2, h5⟩⟩
    · cases ha : admitsBase s.base r with
      | false =>
        obtain ⟨s1, h1, h2, h3⟩ := get_reject_ranks R lfu h r hin ha
        rw [h1] at he; cases he
        exact same h2 h3
      | true =>
        obtain ⟨s1, vs, kept, h1, h2, h3, h4⟩ := get_miss_ranks R lfu h r hop hin ha
        rw [h1] at he; cases he
        exact Or.inl ⟨vs, kept, h2, h3, Or.inr ⟨_, _, _, h4⟩⟩
  | find r u =>
    cases u with
    | true => cases hop
    | false =>
      have he : find R s r false = .ok (b, s') := he
      rw [find_false] at he; injection he with he; injection he with _ he
      subst he
      exact same rfl rfl
  | insert r => cases hop.1
  | remove id =>
    cases lfu with
    | true => cases hop
    | false =>
      have he : removeRank s id = .ok (b, s') := he
      cases ho : s.base.lookup id with
      | none => rw [remove_miss id ho] at he; cases he; exact same rfl rfl
      | some o =>
        obtain ⟨s1, e, h1, _, _, h4, _, h6⟩ := remove_hit h id ho
        rw [h1] at he; cases he
        exact Or.inr ⟨h4, Or.inl ⟨e, h6⟩⟩
  | evict r =>
    by_cases hz : (algo R lfu).nObj s > 0
    · have hne : s.base.tbl ≠ [] := by
        intro e
        have := h.b.inv.nObj_eq
        rw [e] at this
        have hz : s.base.nObj > 0 := hz
        simp at this; omega
      obtain ⟨s1, v, h1, _, _, _, _, _, _, h8, h9, h10⟩ := evict_spec R h hne
      have h1' : (algo R lfu).evict s r = .ok s1 := h1
      simp only [Algo.step, hz, if_true, h1', Res.bind_ok] at he
      cases he
      exact Or.inl ⟨[v], entries s', ⟨h8, entries s', by rw [h9], List.Perm.refl _⟩, by rw [h10]; cases R.ages <;> simp [inflation], Or.inl (List.Perm.refl _)⟩
    · simp only [Algo.step, hz, if_false] at he
      cases he
      exact same rfl rfl

theorem inv_step (R : Scoring P) (lfu : Bool) (h : Inv cs md s) {op : Op} (hop : Calls (perms lfu) (SizeOk md) op) {b : Bool} {s' : State P}
    (he : (algo R lfu).step s op = .ok (b, s')) : Inv cs md s' := by
  obtain ⟨b1, s1, h1, h2, _⟩ := (strong R lfu cs md).step op hop h
  rw [h1] at he; cases he; exact h2

theorem evicts_sub : ∀ {vs l kept : List (Entry P)}, Evicts l vs kept → ∀ e ∈ kept, e ∈ l := by
  intro vs
  induction vs with
  | nil => intro l kept h e he; exact h.symm.subset he
  | cons v vs ih =>
    intro l kept h e he
    obtain ⟨_, l1, h1, h2⟩ := h
    exact h1.symm.subset (by simp [ih h2 e he])

/-- Evicting the lowest ranks raises the inflation value, and what stays is above it. -/
theorem evicts_low : ∀ {vs l kept : List (Entry P)} {a : P}, Evicts l vs kept → (∀ e ∈ l, a ≤ e.pri) →
    a ≤ inflation a vs ∧ ∀ e ∈ kept, inflation a vs ≤ e.pri := by
  intro vs
  induction vs with
  | nil => intro l kept a h ha; exact ⟨le_refl _, fun e he => ha e (h.symm.subset he)⟩
  | cons v vs ih =>
    intro l kept a h ha
    obtain ⟨hv, l1, h1, h2⟩ := h
    have hl1 : ∀ e ∈ l1, v.pri ≤ e.pri := fun e he => by
      rcases hv.2 e (h1.symm.subset (by simp [he])) with h | ⟨h, _⟩
      · exact le_of_lt h
      · exact le_of_eq h
    obtain ⟨i1, i2⟩ := ih h2 hl1
    have e : inflation a (v :: vs) = inflation v.pri vs := by
      unfold inflation
      cases vs with
      | nil => rfl
      | cons w ws => simp [List.getLast?_cons_cons]; rfl
    rw [e]
    exact ⟨le_trans (ha v hv.1) i1, i2⟩

theorem change_low {R : Scoring P} (hA : R.ages = true) (hR : ∀ b f n, b ≤ R.score b f n) {s s' : State P} (hc : Change R s s')
    (hl : ∀ e ∈ entries s, s.infl ≤ e.pri) : (∀ e ∈ entries s', s'.infl ≤ e.pri) ∧ s.infl ≤ s'.infl := by
  rcases hc with ⟨vs, kept, h1, h2, h3⟩ | ⟨h1, h2⟩
  · obtain ⟨i1, i2⟩ := evicts_low h1 hl
    rw [hA, if_pos rfl] at h2
    rw [← h2] at i1 i2
    refine ⟨fun e he => ?_, i1⟩
    rcases h3 with h3 | ⟨id, n, now, h3⟩
    · exact i2 e (h3.subset he)
    · rcases List.mem_cons.1 (h3.subset he) with rfl | he
      · exact hR _ _ _
      · exact i2 e he
  · refine ⟨fun e he => ?_, le_of_eq h1.symm⟩
    rw [h1]
    rcases h2 with ⟨e0, h2⟩ | ⟨e0, rest, now, h2, h3⟩
    · exact hl e (h2.symm.subset (by simp [he]))
    · rcases List.mem_cons.1 (h3.subset he) with rfl | he
      · exact hR _ _ _
      · exact hl e (h2.symm.subset (by simp [he]))

/-- LFUCpp: the priority is the access count. -/
theorem change_lfu {s s' : State Nat} (hc : Change lfuScoring s s') (hl : ∀ e ∈ entries s, e.pri = e.freq) : ∀ e ∈ entries s', e.pri = e.freq := by
  rcases hc with ⟨vs, kept, h1, h2, h3⟩ | ⟨h1, h2⟩
  · intro e he
    rcases h3 with h3 | ⟨id, n, now, h3⟩
    · exact hl e (evicts_sub h1 e (h3.subset he))
    · rcases List.mem_cons.1 (h3.subset he) with rfl | he
      · rfl
      · exact hl e (evicts_sub h1 e he)
  · intro e he
    rcases h2 with ⟨e0, h2⟩ | ⟨e0, rest, now, h2, h3⟩
    · exact hl e (h2.symm.subset (by simp [he]))
    · rcases List.mem_cons.1 (h3.subset he) with rfl | he
      · rfl
      · exact hl e (h2.symm.subset (by simp [he]))

theorem entries_cached (h : Inv cs md s) : ((entries s).map (fun e => (e.id, e.size))).Perm s.base.cached := by
  have hv := viewOf_perm_tbl (f := fun o : Obj Nat => (o.id, o.size)) h.b.inv.nodup h.ids
  refine List.Perm.trans (List.Perm.of_eq ?_) hv
  unfold entries viewOf
  rw [List.map_map, List.filterMap_map, ← List.filterMap_eq_map]
  apply List.filterMap_congr
  intro n hn
  obtain ⟨o, ho⟩ := h.obj hn
  have hid := (lookup_some_mem ho).2
  simp [ent, ho, Function.comp, hid]

end Verif.Rank
