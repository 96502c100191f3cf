import Verif.Proof.QDLPv0Evict
import Verif.Base.Contract
import Verif.Proof.View
/-!
# QDLPv0: requests
-/

namespace Verif.QDLPv0
open Verif Spec
open Verif.Spec.QuickDemotion (Queues Sizes newestWithin shrinkMain)

/-- the cached objects -/
def cached (s : State) : Contents := Lists.onLists Meta.place (fun k => decide (k ≠ .ghost)) s.base

def lists (a : Queues) : Place → Contents
  | .fifo => a.fifo.map Item.entry
  | .clock => (items a.main).map Item.entry
  | .ghost => a.ghosts

section
variable {z : Sizes} {a : Queues} {s : State} {b : Base Meta}

theorem Tab.rep (h : Tab z a b) : Lists.Rep Meta.place (lists a) b := by
  obtain ⟨hn1, hn2, hn3, hd1, hd2⟩ := nd_parts (s := { init 0 0 0 .none with base := b }) h
  refine ⟨h.nodup, ?_, ?_⟩
  · intro k x
    constructor
    · intro hx
      cases k with
      | fifo =>
        obtain ⟨y, hy, rfl⟩ := List.mem_map.1 hx
        obtain ⟨o, h1, h2, h3⟩ := h.hf y hy
        exact ⟨o, h1, h2, by rw [h3]⟩
      | clock =>
        obtain ⟨y, hy, rfl⟩ := List.mem_map.1 hx
        obtain ⟨o, h1, h2, h3⟩ := h.hm y hy
        exact ⟨o, h1, h2, by rw [h3]⟩
      | ghost =>
        obtain ⟨o, h1, h2, h3⟩ := h.hg x hx
        exact ⟨o, h1, h2, h3⟩
    · rintro ⟨o, h1, h2, h3⟩
      rcases h.found h1 with ⟨y, hy, hi, hs, hm⟩ | ⟨y, hy, hi, hs, hm⟩ | ⟨y, hy, hi, hs, hm⟩
      · rw [hm] at h3; subst h3
        exact List.mem_map.2 ⟨y, hy, Prod.ext hi (by rw [← h2, hs])⟩
      · rw [hm] at h3; subst h3
        exact List.mem_map.2 ⟨y, hy, Prod.ext hi (by rw [← h2, hs])⟩
      · rw [hm] at h3; subst h3
        have : y = x := Prod.ext hi (by rw [← h2, hs])
        rw [← this]; exact hy
  · intro k
    cases k with
    | fifo => have := hn1; rw [ids_entry] at this; exact this
    | clock => have := hn2; rw [ids_entry] at this; exact this
    | ghost => exact hn3

theorem Tab.nd_contents (h : Tab z a b) : a.contents.ids.Nodup := by
  rw [ids_contents]
  have := h.nd
  rw [allIds, ← List.append_assoc] at this
  exact this.sublist (List.sublist_append_left _ _)

theorem Abs.cached (h : Abs z a s) : (cached s).Perm a.contents := by
  refine h.tab.rep.onLists_perm _ _ (Lists.nodup_of_ids h.tab.nd_contents) ?_
  intro x
  rw [contents_eq, List.mem_append]
  constructor
  · rintro (hx | hx)
    · exact ⟨.fifo, rfl, hx⟩
    · exact ⟨.clock, rfl, hx⟩
  · rintro ⟨k, hk, hx⟩
    cases k with
    | fifo => exact Or.inl hx
    | clock => exact Or.inr hx
    | ghost => simp at hk

theorem Abs.mem_cached (h : Abs z a s) (id : ObjId) : id ∈ (QDLPv0.cached s).ids ↔ id ∈ a.contents.ids := (h.cached.map Prod.fst).mem_iff

theorem Abs.occ_contents (h : Abs z a s) : s.base.occ = (charge z.md a.contents : Nat) := by
  rw [contents_eq, charge_append]; exact h.occ

/-- the room an object needs -/
theorem Abs.must (h : Abs z a s) (r : Req) : algo.mustEvict s r = true ↔ ¬ (bytes z.md a.contents + (r.size + z.md) ≤ z.cache) := by
  rw [bytes_eq_charge]
  show decide (s.base.occ + (r.size : Int) + (s.base.objMd : Int) > (s.base.cacheSize : Int)) = true ↔ _
  rw [decide_eq_true_iff, h.occ_contents, h.tab.mdz, h.tab.csz]
  omega

/-- the ghosts use no more than their share, the cached objects no more than the cache -/
structure Bounds (z : Sizes) (a : Queues) (s : State) : Prop where
  cap : charge z.md a.contents ≤ z.cache
  ghosts : charge z.md a.ghosts ≤ z.main
  vt : s.vtime ≤ s.base.nReq

theorem Bounds.same {a' : Queues} {s' : State} (h : Bounds z a s) (hs : Same s s') (hc : a'.contents.Subperm a.contents) (hg : charge z.md a'.ghosts ≤ z.main) : Bounds z a' s' :=
  ⟨Nat.le_trans (charge_subperm hc) h.cap, hg, by rw [hs.2.2, hs.1]; exact h.vt⟩

theorem size_le (a : Queues) : Abs.size a ≤ 2 * a.contents.length := by
  simp only [Abs.size, contents_eq, List.length_append, List.length_map]; omega

theorem Abs.loop (r : Req) (hr : r.size + z.md ≤ z.cache) : ∀ n m (a : Queues) (s : State), Abs z a s → Bounds z a s → Abs.size a ≤ n → Abs.size a ≤ m →
    ∃ s', algo.evictLoop r n s = .ok s' ∧ Abs z (QuickDemotion.makeRoom z (r.size + z.md) m a) s' ∧ Bounds z (QuickDemotion.makeRoom z (r.size + z.md) m a) s' ∧ Same s s' ∧
      algo.mustEvict s' r = false ∧ allIds (QuickDemotion.makeRoom z (r.size + z.md) m a) ⊆ allIds a ∧ (QuickDemotion.makeRoom z (r.size + z.md) m a).contents.Subperm a.contents := by
  intro n
  induction n with
  | zero =>
    intro m a s h hb hn hm
    cases hme : algo.mustEvict s r with
    | true =>
      have hne : a.contents ≠ [] := by
        intro e
        have := (h.must r).1 hme
        rw [e] at this
        simp [bytes] at this; omega
      have := List.length_pos_iff.2 hne
      simp only [Abs.size, contents_eq, List.length_append, List.length_map] at this hn
      omega
    | false =>
      have hc : bytes z.md a.contents + (r.size + z.md) ≤ z.cache := by
        by_contra hc; rw [(h.must r).2 hc] at hme; cases hme
      have e : QuickDemotion.makeRoom z (r.size + z.md) m a = a := by
        cases m with
        | zero => rfl
        | succ m => rw [QuickDemotion.makeRoom, if_pos hc]
      rw [e]
      exact ⟨s, by simp [Algo.evictLoop, hme], h, hb, Same.rfl s, hme, fun _ h => h, List.Subperm.refl _⟩
  | succ n ih =>
    intro m a s h hb hn hm
    cases hme : algo.mustEvict s r with
    | true =>
      have hc := (h.must r).1 hme
      have hne : a.contents ≠ [] := by
        intro e
        rw [e] at hc
        simp [bytes] at hc; omega
      obtain ⟨s1, k1, k2, k3, k4, k5, k6, k7⟩ := h.evict hne
      cases m with
      | zero => omega
      | succ m =>
        obtain ⟨s', j1, j2, j3, j4, j5, j6, j7⟩ := ih m _ s1 k2 (hb.same k3 k4 (k7 hb.ghosts)) (by omega) (by omega)
        have e : QuickDemotion.makeRoom z (r.size + z.md) (m + 1) a = QuickDemotion.makeRoom z (r.size + z.md) m (QuickDemotion.evict z a) := by
          rw [QuickDemotion.makeRoom, if_neg hc]
        rw [e]
        refine ⟨s', ?_, j2, j3, k3.trans j4, j5, fun _ h => k6 (j6 h), j7.trans k4⟩
        have k1' : algo.evict s r = .ok s1 := k1
        simp only [Algo.evictLoop, hme, if_true, k1', Res.bind_ok, j1]
    | false =>
      have hc : bytes z.md a.contents + (r.size + z.md) ≤ z.cache := by
        by_contra hc; rw [(h.must r).2 hc] at hme; cases hme
      have e : QuickDemotion.makeRoom z (r.size + z.md) m a = a := by
        cases m with
        | zero => rfl
        | succ m => rw [QuickDemotion.makeRoom, if_pos hc]
      rw [e]
      exact ⟨s, by simp [Algo.evictLoop, hme], h, hb, Same.rfl s, hme, fun _ h => h, List.Subperm.refl _⟩

theorem Abs.bump (h : Abs z a s) : Abs z a (algo.bump s) := h.frame (s.base.nReq + 1) s.base.adm s.vtime

theorem Bounds.bump (h : Bounds z a s) : Bounds z a (algo.bump s) := ⟨h.cap, h.ghosts, by show s.vtime ≤ ((s.base.nReq + 1 : Nat) : Int); have := h.vt; omega⟩

theorem ids_filter_notMem (c : Contents) (id : ObjId) : id ∉ Contents.ids (c.filter (fun x => x.1 ≠ id)) := by
  intro hm
  obtain ⟨x, hx, he⟩ := List.mem_map.1 hm
  have := (List.mem_filter.1 hx).2
  simp [he] at this

theorem filter_charge (md : Nat) (c : Contents) (p : ObjId × Nat → Bool) : charge md (c.filter p) ≤ charge md c := charge_subperm (List.filter_sublist).subperm

/-- the length of the hash table is enough fuel -/
theorem Abs.fuel (h : Abs z a s) : Abs.size a ≤ algo.fuel s := by
  show _ ≤ 2 * s.base.tbl.length
  have := h.tab.tbl.length_eq
  simp only [List.length_map, allIds, List.length_append, ids] at this
  simp only [Abs.size]; omega

theorem insert_contents (a : Queues) (r : Req) (w : Bool) : (QuickDemotion.insert a r w).contents.Perm ((r.id, r.size % u32) :: a.contents) := by
  cases w with
  | false => exact List.Perm.refl _
  | true =>
    show (a.fifo.map Item.entry ++ (a.main.passed ++ (a.main.ahead ++ [(⟨r.id, r.size % u32, 0⟩ : Item)])).map Item.entry).Perm _
    have : a.fifo.map Item.entry ++ (a.main.passed ++ (a.main.ahead ++ [(⟨r.id, r.size % u32, 0⟩ : Item)])).map Item.entry = a.contents ++ [(r.id, r.size % u32)] := by
      simp [contents_eq, items, Item.entry]
    rw [this]
    exact List.perm_append_comm (l₂ := [(r.id, r.size % u32)])

theorem Abs.put (h : Abs z a s) (hb : Bounds z a s) (r : Req) (hr : SizeOk z.md r) (hn : r.id ∉ allIds a) (hme : algo.mustEvict s r = false) :
    ∃ s', QDLPv0.insert s r = .ok s' ∧ Abs z (QuickDemotion.insert a r (decide ((s.base.nReq : Int) = s.vtime))) s' ∧
      Bounds z (QuickDemotion.insert a r (decide ((s.base.nReq : Int) = s.vtime))) s' ∧ Same s s' := by
  obtain ⟨s', k1, k2, k3, k4, k5⟩ := h.insert r hr hn
  refine ⟨s', k1, k2, ⟨?_, ?_, by rw [k5, k3]; exact hb.vt⟩, k3, k4, k5⟩
  · rw [charge_perm (insert_contents a r _)]
    have hc : bytes z.md a.contents + (r.size + z.md) ≤ z.cache := by
      by_contra hc; rw [(h.must r).2 hc] at hme; cases hme
    rw [bytes_eq_charge] at hc
    have := Nat.mod_le r.size u32
    simp only [charge]; omega
  · have : (QuickDemotion.insert a r (decide ((s.base.nReq : Int) = s.vtime))).ghosts = a.ghosts := by
      unfold QuickDemotion.insert; split <;> rfl
    rw [this]; exact hb.ghosts

theorem can_eq (s : State) (r : Req) : algo.canInsert s r = ((s.base.adm.admit r).1 && decide (r.size + s.base.objMd ≤ s.base.cacheSize),
    { s with base := { s.base with adm := (s.base.adm.admit r).2 } }) := by
  show ((s.base.canInsertDefault r).1, { s with base := (s.base.canInsertDefault r).2 }) = _
  rw [canInsertDefault_eq]; rfl

/-- One request is served as specified. -/
theorem Abs.get (h : Abs z a s) (hb : Bounds z a s) (r : Req) (hr : SizeOk z.md r) :
    ∃ s', algo.get s r = .ok ((QuickDemotion.get z (a, s.base.adm) r).1, s') ∧ Abs z (QuickDemotion.get z (a, s.base.adm) r).2.1 s' ∧
      Bounds z (QuickDemotion.get z (a, s.base.adm) r).2.1 s' ∧ s'.base.adm = (QuickDemotion.get z (a, s.base.adm) r).2.2 := by
  have h0 := h.bump
  have hb0 := hb.bump
  by_cases hin : r.id ∈ a.contents.ids
  · obtain ⟨s', k1, k2, k3, k4, k5⟩ := h0.find_hit r hin
    have e : QuickDemotion.get z (a, s.base.adm) r = (true, (QuickDemotion.hit a r, s.base.adm)) := by
      rw [QuickDemotion.get]; exact if_pos hin
    rw [e]
    refine ⟨s', get_hit k1, k2, ⟨?_, hb.ghosts, by rw [k5, k3]; exact hb0.vt⟩, k4⟩
    have : (QuickDemotion.hit a r).contents = a.contents := by
      rw [hit_eq]
      simp only [contents_eq, items_mark, map_entry _ _ (up_entry r), map_entry _ _ (mark_entry r)]
    rw [this]; exact hb.cap
  · obtain ⟨s1, k1, k2, k3, k4, k5⟩ := h0.find_miss r hin
    have hfa : allIds { a with ghosts := a.ghosts.filter (fun x => x.1 ≠ r.id) } ⊆ allIds a := by
      intro y hy
      simp only [allIds, List.mem_append] at hy ⊢
      rcases hy with hy | hy | hy
      · exact Or.inl hy
      · exact Or.inr (Or.inl hy)
      · exact Or.inr (Or.inr (List.map_subset _ (List.filter_subset_self _) hy))
    have hnot : r.id ∉ allIds { a with ghosts := a.ghosts.filter (fun x => x.1 ≠ r.id) } := by
      rw [ids_contents, List.mem_append, not_or] at hin
      simp only [allIds, List.mem_append, not_or]
      exact ⟨hin.1, hin.2, ids_filter_notMem _ _⟩
    have hv : s1.vtime ≤ s1.base.nReq := by
      rw [k5, k3]
      split
      · exact Int.le_refl _
      · exact hb0.vt
    let s2 : State := { s1 with base := { s1.base with adm := (s1.base.adm.admit r).2 } }
    have h2 : Abs z { a with ghosts := a.ghosts.filter (fun x => x.1 ≠ r.id) } s2 := k2.frame s1.base.nReq _ s1.vtime
    have hb2 : Bounds z { a with ghosts := a.ghosts.filter (fun x => x.1 ≠ r.id) } s2 := ⟨hb.cap, Nat.le_trans (filter_charge _ _ _) hb.ghosts, hv⟩
    have hadm : s1.base.adm = s.base.adm := k4
    by_cases hc : (s.base.adm.admit r).1 = true ∧ r.size + z.md ≤ z.cache
    · have hcan : algo.canInsert s1 r = (true, s2) := by
        rw [can_eq, hadm, hc.1, k2.tab.mdz, k2.tab.csz, decide_eq_true hc.2]
        simp only [s2, hadm]; rfl
      obtain ⟨s3, j1, j2, j3, j4, j5, j6, _⟩ := Abs.loop r hc.2 (algo.fuel s2) (2 * (Queues.contents { a with ghosts := a.ghosts.filter (fun x => x.1 ≠ r.id) }).length) _ s2 h2 hb2
        h2.fuel (size_le _)
      obtain ⟨s4, l1, l2, l3, l4⟩ := j2.put j3 r hr (fun hm => hnot (j6 hm)) j5
      have hw : decide ((s3.base.nReq : Int) = s3.vtime) = decide (r.id ∈ a.ghosts.ids) := by
        rw [decide_eq_decide, j4.1, j4.2.2]
        show (s1.base.nReq : Int) = s1.vtime ↔ _
        rw [k3, k5]
        split
        · next hg => exact ⟨fun _ => hg, fun _ => rfl⟩
        · next hg =>
          refine ⟨fun he => ?_, fun h => absurd h hg⟩
          have : ((s.base.nReq + 1 : Nat) : Int) = s.vtime := he
          have := hb.vt
          omega
      rw [hw] at l2 l3
      have e : QuickDemotion.get z (a, s.base.adm) r = (false, (QuickDemotion.insert (QuickDemotion.makeRoom z (r.size + z.md)
          (2 * (Queues.contents { a with ghosts := a.ghosts.filter (fun x => x.1 ≠ r.id) }).length)
          { a with ghosts := a.ghosts.filter (fun x => x.1 ≠ r.id) }) r (decide (r.id ∈ a.ghosts.ids)), (s.base.adm.admit r).2)) := by
        rw [QuickDemotion.get]
        exact (if_neg hin).trans (if_pos hc)
      rw [e]
      refine ⟨s4, get_accept k1 hcan j1 l1, l2, l3, ?_⟩
      rw [l4.2.1, j4.2.1]
      show (s1.base.adm.admit r).2 = _
      rw [hadm]
    · have hcan : algo.canInsert s1 r = (false, s2) := by
        rw [can_eq, hadm, k2.tab.mdz, k2.tab.csz]
        have : ((s.base.adm.admit r).1 && decide (r.size + z.md ≤ z.cache)) = false := by
          by_contra hne
          rw [Bool.not_eq_false, Bool.and_eq_true, decide_eq_true_iff] at hne
          exact hc hne
        rw [this]
        simp only [s2, hadm]
      have e : QuickDemotion.get z (a, s.base.adm) r = (false, ({ a with ghosts := a.ghosts.filter (fun x => x.1 ≠ r.id) }, (s.base.adm.admit r).2)) := by
        rw [QuickDemotion.get]
        exact (if_neg hin).trans (if_neg hc)
      rw [e]
      refine ⟨s2, get_reject k1 hcan, h2, hb2, ?_⟩
      show (s1.base.adm.admit r).2 = _
      rw [hadm]

theorem Abs.gets : ∀ (rs : List Req) (t : Queues × Adm) (s : State), Abs z t.1 s → Bounds z t.1 s → s.base.adm = t.2 → (∀ r ∈ rs, SizeOk z.md r) →
    ∃ s', algo.gets s rs = .ok ((QuickDemotion.gets z t rs).1, s') ∧ Abs z (QuickDemotion.gets z t rs).2.1 s' := by
  intro rs
  induction rs with
  | nil => intro t s h _ _ _; exact ⟨s, rfl, h⟩
  | cons r rs ih =>
    intro t s h hb he hr
    obtain ⟨s1, k1, k2, k3, k4⟩ := h.get hb r (hr r (by simp))
    have et : (t.1, s.base.adm) = t := by rw [he]
    rw [et] at k1 k2 k3 k4
    obtain ⟨s', j1, j2⟩ := ih _ s1 k2 k3 k4 (fun r' h => hr r' (by simp [h]))
    refine ⟨s', ?_, j2⟩
    simp only [Algo.gets, k1, Res.bind_ok, j1]
    rfl

/-! ### calls -/

def Inv (z : Sizes) (s : State) : Prop := ∃ a, Abs z a s ∧ Bounds z a s

theorem abs_init (cs md fs : Nat) (hf : fs ≤ cs) (adm : Adm) : Abs ⟨cs, md, fs⟩ ⟨[], ⟨[], []⟩, []⟩ (init cs md fs adm) ∧ Bounds ⟨cs, md, fs⟩ ⟨[], ⟨[], []⟩, []⟩ (init cs md fs adm) := by
  refine ⟨⟨⟨List.nodup_nil, List.Perm.refl _, by simp, by simp [items], by simp, by simp [init, Base.init], rfl, rfl⟩, rfl, rfl, rfl, Or.inl ⟨rfl, rfl⟩, rfl, rfl, rfl, rfl, rfl, rfl,
    by simp [items], rfl, ?_, ?_⟩, ⟨Nat.zero_le _, Nat.zero_le _, by show (-1 : Int) ≤ ((0 : Nat) : Int); omega⟩⟩
  · show (cs : Int) - fs = ((cs - fs : Nat) : Int); omega
  · show (cs : Int) - fs = ((cs - fs : Nat) : Int); omega

theorem inv_init (cs md fs : Nat) (hf : fs ≤ cs) (adm : Adm) : Inv ⟨cs, md, fs⟩ (init cs md fs adm) := ⟨_, abs_init cs md fs hf adm⟩

/-- what makes room for a request and lets it be inserted -/
def Ready (z : Sizes) (s : State) (r : Req) : Prop := r.size + z.md ≤ z.cache ∧ s.base.lookup r.id = none

/-- twice the objects of the FIFO queue and the objects of the main queue -/
def measure (s : State) : Nat := 2 * s.fifo.length + s.clock.length

theorem Abs.measure (h : Abs z a s) : measure s = Abs.size a := by
  have h1 : s.fifo.length = a.fifo.length := by rw [h.qf]; simp [ids]
  have h2 : s.clock.length = (items a.main).length := by
    have := congrArg List.length h.qm
    simpa [ids] using this
  simp only [QDLPv0.measure, Abs.size, h1, h2]

theorem hit_contents (a : Queues) (r : Req) : (QuickDemotion.hit a r).contents = a.contents := by
  rw [hit_eq]
  simp only [contents_eq, items_mark, map_entry _ _ (up_entry r), map_entry _ _ (mark_entry r)]

theorem lookup_mono {a' : Queues} {b' : Base Meta} (h : Tab z a b) (h' : Tab z a' b') (hs : allIds a' ⊆ allIds a) {id : ObjId} (hn : b.lookup id = none) : b'.lookup id = none :=
  h'.lookup_none (fun hm => h.notIn hn (hs hm))

theorem contract (z : Sizes) : Contract algo cached (Inv z) (Ready z) measure z.cache z.md { rem := false, ins := false } (SizeOk z.md) where
  csz := by rintro s ⟨a, h, hb⟩; exact h.tab.csz
  mdz := by rintro s ⟨a, h, hb⟩; exact h.tab.mdz
  nodup := by rintro s ⟨a, h, hb⟩; exact h.tab.rep.onLists_nodup _
  occ := by
    rintro s ⟨a, h, hb⟩
    rw [charge_perm h.cached]; exact h.occ_contents
  nObj := by
    rintro s ⟨a, h, hb⟩
    rw [h.cached.length_eq, contents_eq, List.length_append, List.length_map, List.length_map]; exact h.nObj
  cap := by
    rintro s ⟨a, h, hb⟩
    show s.base.occ ≤ _
    rw [h.occ_contents]; exact_mod_cast hb.cap
  bump := by rintro s ⟨a, h, hb⟩; exact ⟨⟨a, h.bump, hb.bump⟩, rfl⟩
  findF := by
    rintro _ s r ⟨a, h, hb⟩
    show find s r false = _
    rw [h.find_false]
    congr 2
    rw [decide_eq_decide, h.mem_cached]
  findHit := by
    rintro s r ⟨a, h, hb⟩ hin _
    obtain ⟨s', k1, k2, k3, k4, k5⟩ := h.find_hit r ((h.mem_cached _).1 hin)
    refine ⟨s', k1, ⟨_, k2, ⟨by rw [hit_contents]; exact hb.cap, hb.ghosts, by rw [k5, k3]; exact hb.vt⟩⟩, ?_⟩
    refine (k2.cached.trans ?_).subperm
    rw [hit_contents]; exact h.cached.symm
  findMiss := by
    rintro s r ⟨a, h, hb⟩ hin _
    obtain ⟨s1, k1, k2, k3, k4, k5⟩ := h.find_miss r (fun hm => hin ((h.mem_cached _).2 hm))
    have hv : s1.vtime ≤ s1.base.nReq := by
      rw [k5, k3]
      split
      · exact Int.le_refl _
      · exact hb.vt
    have hb1 : ∀ s2 : State, s2.vtime = s1.vtime → s2.base.nReq = s1.base.nReq → Bounds z { a with ghosts := a.ghosts.filter (fun x => x.1 ≠ r.id) } s2 :=
      fun s2 e1 e2 => ⟨hb.cap, Nat.le_trans (filter_charge _ _ _) hb.ghosts, by rw [e1, e2]; exact hv⟩
    have hp : (QDLPv0.cached s1).Perm (QDLPv0.cached s) := k2.cached.trans h.cached.symm
    refine ⟨s1, k1, ⟨_, k2, hb1 s1 rfl rfl⟩, hp, ?_, ?_, ?_⟩
    · rw [can_eq]; exact ⟨_, k2.frame s1.base.nReq _ s1.vtime, hb1 _ rfl rfl⟩
    · rw [can_eq]; exact hp
    · rw [can_eq]
      intro hc _
      rw [Bool.and_eq_true, decide_eq_true_iff, k2.tab.mdz, k2.tab.csz] at hc
      refine ⟨hc.2, k2.tab.lookup_none ?_⟩
      have hin' : r.id ∉ a.contents.ids := fun hm => hin ((h.mem_cached _).2 hm)
      rw [ids_contents, List.mem_append, not_or] at hin'
      simp only [allIds, List.mem_append, not_or]
      exact ⟨hin'.1, hin'.2, ids_filter_notMem _ _⟩
  fuel := by rintro s ⟨a, h, hb⟩; rw [h.measure]; exact h.fuel
  evictLoop := by
    rintro s r ⟨a, h, hb⟩ _ hrd _ hme
    have hne : a.contents ≠ [] := by
      intro e
      have := (h.must r).1 hme
      rw [e] at this
      have := hrd.1
      simp [bytes] at *; omega
    obtain ⟨s1, k1, k2, k3, k4, k5, k6, k7⟩ := h.evict hne
    refine ⟨s1, k1, ⟨_, k2, hb.same k3 k4 (k7 hb.ghosts)⟩, ⟨hrd.1, lookup_mono h.tab k2.tab k6 hrd.2⟩, ?_, by rw [h.measure, k2.measure]; exact k5⟩
    exact (k2.cached.subperm.trans k4).trans h.cached.symm.subperm
  insert := by
    rintro s r ⟨a, h, hb⟩ hr hrd _ hme
    obtain ⟨s', k1, k2, k3, k4⟩ := h.put hb r hr (h.tab.notIn hrd.2) hme
    refine ⟨s', k1, ⟨_, k2, k3⟩, ?_⟩
    exact ((k2.cached.trans (insert_contents a r _)).trans (h.cached.symm.cons _)).subperm
  userInsert := by intro h; cases h
  remove := by intro h; cases h
  evict := by
    rintro _ s r ⟨a, h, hb⟩ hne
    have hne' : a.contents ≠ [] := by
      intro e; apply hne
      have := h.cached; rw [e] at this; exact this.eq_nil
    obtain ⟨s1, k1, k2, k3, k4, k5, k6, k7⟩ := h.evict hne'
    refine ⟨s1, k1, ⟨_, k2, hb.same k3 k4 (k7 hb.ghosts)⟩, ?_⟩
    exact (k2.cached.subperm.trans k4).trans h.cached.symm.subperm

end
/-! ### the queues of a state -/

def item (o : Obj Meta) : Item := ⟨o.id, o.size, o.mt.freq⟩

/-- the queues as the specification has them -/
def queues (s : State) : Queues :=
  { fifo := viewOf item s.base s.fifo
    main :=
      match s.hand with
      | .at h => ⟨viewOf item s.base (s.clock.reverse.takeWhile (fun x => x ≠ h)), viewOf item s.base (s.clock.reverse.dropWhile (fun x => x ≠ h))⟩
      | _ => ⟨[], viewOf item s.base s.clock.reverse⟩
    ghosts := (viewOf item s.base s.ghost).map Item.entry }

section
variable {z : Sizes} {a : Queues} {s : State} {b : Base Meta}

theorem view_has {p : Place} : ∀ l : List Item, (∀ x ∈ l, Has b p x) → viewOf item b (ids l) = l := by
  intro l
  induction l with
  | nil => intro _; rfl
  | cons x l ih =>
    intro h
    obtain ⟨o, h1, h2, h3⟩ := h x (by simp)
    have : ids (x :: l) = x.id :: ids l := rfl
    rw [this, viewOf_cons h1, ih (fun y hy => h y (by simp [hy]))]
    have : item o = x := by
      rw [item, (lookup_some_mem h1).2, h2, h3]
    rw [this]

theorem view_ghost : ∀ l : Contents, (∀ x ∈ l, HasG b x) → (viewOf item b (Contents.ids l)).map Item.entry = l := by
  intro l
  induction l with
  | nil => intro _; rfl
  | cons x l ih =>
    intro h
    obtain ⟨o, h1, h2, h3⟩ := h x (by simp)
    have : Contents.ids (x :: l) = x.1 :: Contents.ids l := rfl
    rw [this, viewOf_cons h1, List.map_cons, ih (fun y hy => h y (by simp [hy]))]
    have : (item o).entry = x := Prod.ext (lookup_some_mem h1).2 h2
    rw [this]

theorem Abs.queues (h : Abs z a s) : queues s = a := by
  obtain ⟨_, hn, _, _, _⟩ := nd_parts h.tab
  have hf : viewOf item s.base s.fifo = a.fifo := by rw [h.qf]; exact view_has _ h.tab.hf
  have hg : (viewOf item s.base s.ghost).map Item.entry = a.ghosts := by rw [h.qg]; exact view_ghost _ h.tab.hg
  have hm : (QDLPv0.queues s).main = a.main := by
    unfold QDLPv0.queues
    rcases h.hand with ⟨h1, h2⟩ | ⟨x, l, h1, h2⟩
    · rw [h1, h.qm]
      show (⟨[], _⟩ : SieveState) = _
      rw [view_has _ h.tab.hm]
      have : items a.main = a.main.ahead := by simp [items, h2]
      rw [this, ← h2]
    · rw [h2, h.qm]
      have e : ids (items a.main) = ids a.main.passed ++ x.id :: ids l := by simp [ids, items, h1]
      have hnx : x.id ∉ ids a.main.passed := by
        rw [e, List.nodup_append] at hn
        exact fun hx => hn.2.2 x.id hx x.id (by simp) rfl
      show (⟨viewOf item s.base ((ids (items a.main)).takeWhile (fun y => decide (y ≠ x.id))), viewOf item s.base ((ids (items a.main)).dropWhile (fun y => decide (y ≠ x.id)))⟩ : SieveState) = _
      rw [e, Sieve.takeWhile_split hnx, Sieve.dropWhile_split hnx, view_has _ (fun y hy => h.tab.hm y (by simp [items, hy]))]
      have : x.id :: ids l = ids (x :: l) := rfl
      rw [this, view_has (x :: l) (fun y hy => h.tab.hm y (by rw [items, h1]; exact List.mem_append_right _ hy)), ← h1]
  show (⟨viewOf item s.base s.fifo, (QDLPv0.queues s).main, (viewOf item s.base s.ghost).map Item.entry⟩ : Queues) = a
  rw [hf, hg, hm]

theorem Inv.abs (h : Inv z s) : Abs z (QDLPv0.queues s) s ∧ Bounds z (QDLPv0.queues s) s := by
  obtain ⟨a, h1, h2⟩ := h
  rw [h1.queues]; exact ⟨h1, h2⟩

/-! ### remove -/

/-- the queues without an object -/
def without (a : Queues) (id : ObjId) : Queues :=
  ⟨a.fifo.filter (fun x => x.id ≠ id), ⟨a.main.passed.filter (fun x => x.id ≠ id), a.main.ahead.filter (fun x => x.id ≠ id)⟩, a.ghosts.filter (fun x => x.1 ≠ id)⟩

theorem eraseP_filter {l : List (Obj Meta)} (hn : (l.map (·.id)).Nodup) (id : ObjId) : l.eraseP (fun o => o.id = id) = l.filter (fun o => o.id ≠ id) := by
  induction l with
  | nil => rfl
  | cons o l ih =>
    simp only [List.map_cons, List.nodup_cons] at hn
    by_cases e : o.id = id
    · rw [List.eraseP_cons_of_pos (by simpa using e), List.filter_cons_of_neg (by simpa using e), eq_comm, List.filter_eq_self]
      intro y hy
      simp only [ne_eq, decide_not, Bool.not_eq_eq_eq_not, Bool.not_true, decide_eq_false_iff_not]
      intro hye
      exact hn.1 (by rw [e, ← hye]; exact List.mem_map_of_mem hy)
    · rw [List.eraseP_cons_of_neg (by simpa using e), List.filter_cons_of_pos (by simpa using e), ih hn.2]

theorem cached_del {s' : State} (hn : (s.base.tbl.map (·.id)).Nodup) (id : ObjId) (ht : s'.base.tbl = (s.base.del id).tbl) :
    QDLPv0.cached s' = (QDLPv0.cached s).filter (fun x => x.1 ≠ id) := by
  unfold QDLPv0.cached Lists.onLists
  rw [ht]
  show ((s.base.tbl.eraseP (fun o => o.id = id)).filter _).map _ = _
  rw [eraseP_filter hn, List.filter_map, List.filter_filter, List.filter_filter]
  congr 1
  apply List.filter_congr
  intro o _
  simp [Bool.and_comm, Function.comp]

/-- A removal takes exactly the object off; it also takes off, and reports, an object of which only the id is left. -/
theorem Abs.remove (h : Abs z a s) (id : ObjId) :
    ∃ s', remove s id = .ok (decide (id ∈ a.contents.ids ∨ id ∈ a.ghosts.ids), s') ∧
      (QDLPv0.cached s').Perm ((QDLPv0.cached s).filter (fun x => x.1 ≠ id)) := by
  cases e : s.base.lookup id with
  | none =>
    have hn := h.tab.notIn e
    simp only [allIds, List.mem_append, not_or] at hn
    refine ⟨s, ?_, ?_⟩
    · simp only [QDLPv0.remove, e]
      rw [decide_eq_false (by rw [ids_contents, List.mem_append, not_or, not_or]; exact ⟨⟨hn.1, hn.2.1⟩, hn.2.2⟩)]
    · rw [List.filter_eq_self.2]
      intro x hx
      simp only [ne_eq, decide_not, Bool.not_eq_eq_eq_not, Bool.not_true, decide_eq_false_iff_not]
      rintro rfl
      have : x.1 ∈ a.contents.ids := (h.mem_cached _).1 (List.mem_map_of_mem hx)
      rw [ids_contents, List.mem_append] at this
      exact this.elim hn.1 hn.2.1
  | some o =>
    have hid := (lookup_some_mem e).2
    have hb : ∃ b', s.base.removeObjBase id = .ok b' ∧ b'.tbl = (s.base.del id).tbl := by
      exact ⟨{ s.base with occ := s.base.occ - (((o.size + s.base.objMd) % u32 : Nat) : Int), nObj := s.base.nObj - 1 }.del id, by rw [Base.removeObjBase, e], rfl⟩
    obtain ⟨b', hb1, hb2⟩ := hb
    rcases h.tab.found e with ⟨x, hx, hi, hs, hm⟩ | ⟨x, hx, hi, hs, hm⟩ | ⟨x, hx, hi, hs, hm⟩
    · have hin : id ∈ s.fifo := by rw [h.qf, ← hi]; exact List.mem_map_of_mem hx
      refine ⟨{ s with fifo := s.fifo.erase id, nFifoByte := s.nFifoByte - QDLPv0.osz s o, base := b' }, ?_, ?_⟩
      · simp only [QDLPv0.remove, e, removeObj, hm, hid, qRemove, if_pos hin, Res.bind_ok, hb1]
        rw [ids_contents, decide_eq_true (Or.inl (List.mem_append_left _ (by rw [← hi]; exact List.mem_map_of_mem hx)))]
      · rw [cached_del (s := s) h.tab.nodup id hb2]
    · have hin : id ∈ s.clock := by rw [← List.mem_reverse, h.qm, ← hi]; exact List.mem_map_of_mem hx
      refine ⟨{ s with clock := s.clock.erase id, nClockObj := s.nClockObj - 1, nClockByte := s.nClockByte - QDLPv0.osz s o, base := b',
                       hand := if s.hand = .at id then .dangling else s.hand }, ?_, ?_⟩
      · simp only [QDLPv0.remove, e, removeObj, hm, hid, qRemove, if_pos hin, Res.bind_ok, hb1]
        rw [ids_contents, decide_eq_true (Or.inl (List.mem_append_right _ (by rw [← hi]; exact List.mem_map_of_mem hx)))]
      · rw [cached_del (s := s) h.tab.nodup id hb2]
    · have hin : id ∈ s.ghost := by rw [h.qg, ← hi]; exact List.mem_map_of_mem hx
      refine ⟨{ s with ghost := s.ghost.erase id, nGhostByte := s.nGhostByte - QDLPv0.osz s o, base := s.base.del id }, ?_, ?_⟩
      · simp only [QDLPv0.remove, e, removeObj, hm, hid, qRemove, if_pos hin, Res.bind_ok]
        rw [decide_eq_true (Or.inr (by rw [← hi]; exact List.mem_map_of_mem hx))]
      · rw [cached_del (s := s) h.tab.nodup id rfl]

/-! ### what one request does -/

theorem room_fits (need : Nat) (n : Nat) (hc : bytes z.md a.contents + need ≤ z.cache) : QuickDemotion.makeRoom z need n a = a := by
  cases n with
  | zero => rfl
  | succ n => rw [QuickDemotion.makeRoom, if_pos hc]

theorem Inv.admitted (hi : Inv z s) (r : Req) (hr : SizeOk z.md r) (hn : r.id ∉ (QDLPv0.cached s).ids) (ha : admitsBase s.base r = true) :
    ∃ s' kept, algo.get s r = .ok (false, s') ∧ kept.Subperm (QDLPv0.cached s) ∧ (QDLPv0.cached s').Perm ((r.id, r.size % u32) :: kept) ∧
      (bytes z.md (QDLPv0.cached s) + (r.size + z.md) ≤ z.cache → kept.Perm (QDLPv0.cached s)) := by
  obtain ⟨h, hb⟩ := hi.abs
  have hn' : r.id ∉ (QDLPv0.queues s).contents.ids := fun hm => hn ((h.mem_cached _).2 hm)
  obtain ⟨s', k1, k2, k3, k4⟩ := h.get hb r hr
  rw [admitsBase, Bool.and_eq_true, decide_eq_true_iff, h.tab.mdz, h.tab.csz] at ha
  let a1 : Queues := { (QDLPv0.queues s) with ghosts := (QDLPv0.queues s).ghosts.filter (fun x => x.1 ≠ r.id) }
  have e : QuickDemotion.get z (QDLPv0.queues s, s.base.adm) r = (false, (QuickDemotion.insert (QuickDemotion.makeRoom z (r.size + z.md)
      (2 * a1.contents.length) a1) r (decide (r.id ∈ (QDLPv0.queues s).ghosts.ids)), (s.base.adm.admit r).2)) := by
    rw [QuickDemotion.get]
    exact (if_neg hn').trans (if_pos ha)
  rw [e] at k1 k2
  -- the loop of evictions keeps a part of the contents
  obtain ⟨s1, j1, j2, j3, j4, j5⟩ := h.bump.find_miss r hn'
  have hv : s1.vtime ≤ s1.base.nReq := by
    rw [j5, j3]
    split
    · exact Int.le_refl _
    · exact hb.bump.vt
  obtain ⟨_, _, _, _, _, _, _, l7⟩ := Abs.loop r ha.2 (Abs.size a1) (2 * a1.contents.length) a1 s1 j2 ⟨hb.cap, Nat.le_trans (filter_charge _ _ _) hb.ghosts, hv⟩ (Nat.le_refl _) (size_le _)
  refine ⟨s', (QuickDemotion.makeRoom z (r.size + z.md) (2 * a1.contents.length) a1).contents, k1, ?_, ?_, ?_⟩
  · exact l7.trans h.cached.symm.subperm
  · exact k2.cached.trans (insert_contents _ _ _)
  · intro hc
    rw [bytes_eq_charge, charge_perm h.cached, ← bytes_eq_charge] at hc
    rw [room_fits (a := a1) _ _ hc]
    exact h.cached.symm

theorem Inv.rejected (hi : Inv z s) (r : Req) (hr : SizeOk z.md r) (hn : r.id ∉ (QDLPv0.cached s).ids) (ha : admitsBase s.base r = false) :
    ∃ s', algo.get s r = .ok (false, s') ∧ QDLPv0.queues s' = { QDLPv0.queues s with ghosts := (QDLPv0.queues s).ghosts.filter (fun x => x.1 ≠ r.id) } ∧
      (QDLPv0.cached s').Perm (QDLPv0.cached s) := by
  obtain ⟨h, hb⟩ := hi.abs
  have hn' : r.id ∉ (QDLPv0.queues s).contents.ids := fun hm => hn ((h.mem_cached _).2 hm)
  obtain ⟨s', k1, k2, k3, k4⟩ := h.get hb r hr
  have ha' : ¬ ((s.base.adm.admit r).1 = true ∧ r.size + z.md ≤ z.cache) := by
    rintro ⟨h1, h2⟩
    rw [admitsBase, h1, h.tab.mdz, h.tab.csz, decide_eq_true h2] at ha
    cases ha
  have e : QuickDemotion.get z (QDLPv0.queues s, s.base.adm) r =
      (false, ({ QDLPv0.queues s with ghosts := (QDLPv0.queues s).ghosts.filter (fun x => x.1 ≠ r.id) }, (s.base.adm.admit r).2)) := by
    rw [QuickDemotion.get]
    exact (if_neg hn').trans (if_neg ha')
  rw [e] at k1 k2
  exact ⟨s', k1, k2.queues, k2.cached.trans h.cached.symm⟩

end
end Verif.QDLPv0
