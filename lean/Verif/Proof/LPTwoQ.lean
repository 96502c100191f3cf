import Verif.Proof.Ghost
import Verif.Proof.QRep
import Verif.Proof.MainCache
import Verif.Base.Medium
import Verif.Algo.LPTwoQ
/-!
# LP_TwoQ meets the `Medium` contract
-/

namespace Verif
open Spec

namespace LPTwoQ

/-- the CLOCK cache Am in a state it can be in -/
def AmOk (ms : Nat) (m : Clock.State) : Prop := Clock.Inv ms 0 1 m ∧ m.base.adm = .none

namespace AmOk
variable {ms : Nat} {m : Clock.State}

theorem init (ms : Nat) : AmOk ms (Clock.init ms 0 1 .none) := ⟨Clock.inv_init ms 0 1 .none, rfl⟩
theorem nodup (h : AmOk ms m) : m.base.cached.ids.Nodup := (MainCache.clock ms 1).nodup h
theorem occ (h : AmOk ms m) : m.base.occ = (charge 0 m.base.cached : Nat) := (MainCache.clock ms 1).occ h
theorem nObj (h : AmOk ms m) : m.base.nObj = (m.base.cached.length : Nat) := (MainCache.clock ms 1).nObj h
theorem charge_le (h : AmOk ms m) : charge 0 m.base.cached ≤ ms := (MainCache.clock ms 1).cap h
theorem findF (h : AmOk ms m) (r : Req) : Clock.algo.find m r false = .ok (decide (r.id ∈ m.base.cached.ids), m) := (MainCache.clock ms 1).findF r h

theorem lookup_some (h : AmOk ms m) {id : ObjId} (hin : id ∈ m.base.cached.ids) : ∃ o, m.base.lookup id = some o := by
  cases hl : m.base.lookup id with
  | none => exact absurd hin (lookup_none_iff'.1 hl)
  | some o => exact ⟨o, rfl⟩

/-- a find with update: the counter of the object goes up, nothing moves -/
theorem find (h : AmOk ms m) (r : Req) : ∃ m', Clock.algo.find m r true = .ok (decide (r.id ∈ m.base.cached.ids), m') ∧ AmOk ms m' ∧
    m'.base.cached.Perm m.base.cached ∧ (r.id ∈ m.base.cached.ids → Clock.view m' = (clock 1).onHit (Clock.view m) r) ∧
    (r.id ∉ m.base.cached.ids → m' = m) := by
  obtain ⟨m', h1, h2, h3⟩ := (MainCache.clock ms 1).findT r h
  refine ⟨m', h1, h2, h3, fun hin => ?_, fun hn => ?_⟩
  · obtain ⟨o, ho⟩ := h.lookup_some hin
    rw [decide_eq_true hin] at h1
    exact ((Clock.sim ms 0 1).findHit r o h.1 ho h1).1
  · have h4 : Clock.algo.find m r true = .ok (false, m) := Clock.find_miss (lookup_none_iff'.2 hn)
    rw [h4] at h1
    injection h1 with h1
    injection h1 with _ h1
    exact h1.symm

theorem evict (h : AmOk ms m) (r : Req) (hne : m.base.cached ≠ []) :
    ∃ m' v, Clock.algo.evict m r = .ok m' ∧ AmOk ms m' ∧ m.base.cached.Perm (v :: m'.base.cached) ∧ Clock.view m' = clockEvict (Clock.view m) := by
  obtain ⟨m', v, h1, h2, h3⟩ := (MainCache.clock ms 1).evict r h hne
  exact ⟨m', v, h1, h2, h3, ((Clock.sim ms 0 1).evict r h.1 (by intro h0; simp [Base.cached, h0] at hne) h1).1⟩

theorem view_ids (h : AmOk ms m) (i : ObjId) : i ∈ (Clock.view m).map Item.id ↔ i ∈ m.base.cached.ids := by
  have := (Clock.sim ms 0 1).ids h.1 i
  rw [← this]
  simp [clock, Contents.ids, Item.entry]

theorem view_perm (h : AmOk ms m) : ((Clock.view m).map Item.id).Perm m.base.cached.ids := by
  have := ((Clock.sim ms 0 1).contents h.1).map Prod.fst
  simpa [clock, Contents.ids, Item.entry, Function.comp_def] using this

end AmOk

/-- what is cached: Ain and Am -/
def cached (s : State) : Contents := cont s.ain.objs ++ s.am.base.cached

structure Inv (cs as gs : Nat) (d : Prop) (s : State) : Prop where
  csz : s.cacheSize = cs
  half : 2 * as ≤ cs
  ain : Rep as 0 s.ain s.ain.objs
  aout : PInv gs s.aout
  am : AmOk (cs - as) s.am
  ainz : s.ainSize = as
  dis : ∀ i ∈ s.ain.objs.map (·.id), i ∉ s.am.base.cached.ids
  cap : charge 0 (cached s) ≤ cs
  sep : d → ∀ i ∈ s.aout.base.cached.ids, i ∉ (cached s).ids

theorem inv_mk {cs as gs : Nat} {d : Prop} {s : State} {l : List (Obj Unit)} (hcs : s.cacheSize = cs) (hh : 2 * as ≤ cs)
    (ha : Rep as 0 s.ain l) (ho : PInv gs s.aout) (hm : AmOk (cs - as) s.am) (hz : s.ainSize = as)
    (hdis : ∀ i ∈ l.map (·.id), i ∉ s.am.base.cached.ids)
    (hcap : charge 0 (cont l ++ s.am.base.cached) ≤ cs)
    (hsep : d → ∀ i ∈ s.aout.base.cached.ids, i ∉ Contents.ids (cont l ++ s.am.base.cached)) : Inv cs as gs d s := by
  have e1 := ha.objs
  have ec : cached s = cont l ++ s.am.base.cached := by rw [cached, e1]
  exact ⟨hcs, hh, by rw [e1]; exact ha, ho, hm, hz, by rw [e1]; exact hdis, by rw [ec]; exact hcap, by rw [ec]; exact hsep⟩

theorem inv_init {cs as : Nat} (gs : Nat) (d : Prop) (h : 2 * as ≤ cs) : Inv cs as gs d (init cs as gs) :=
  inv_mk rfl h (Rep.init as 0 .none) (PInv.init gs) (AmOk.init (cs - as)) rfl (by simp) (by simp [charge, init, Clock.init, QState.init, Base.init, Base.cached])
    (by simp [init, FIFO.init, QState.init, Base.init, Base.cached])

def measure (s : State) : Nat := s.ain.objs.length + s.am.base.cached.length

section
variable {cs as gs : Nat} {d : Prop} {s : State}

theorem Inv.occ (h : Inv cs as gs d s) : algo.occ s = (charge 0 (cached s) : Nat) := by
  show s.ain.base.occ + s.am.base.occ = _
  rw [h.ain.occ, h.am.occ, cached, charge_append]; push_cast; rfl

theorem Inv.nodup (h : Inv cs as gs d s) : (cached s).ids.Nodup := by
  rw [cached, Contents.ids, List.map_append, List.nodup_append]
  exact ⟨by rw [show (cont s.ain.objs).map Prod.fst = _ from cont_ids _]; exact h.ain.nodup, h.am.nodup,
    fun a ha b hb e => h.dis a (by rw [← cont_ids]; exact ha) (e ▸ hb)⟩

theorem mem_cached (s : State) (i : ObjId) :
    i ∈ (cached s).ids ↔ i ∈ s.ain.objs.map (·.id) ∨ i ∈ s.am.base.cached.ids := by
  rw [cached, Contents.ids, List.map_append, List.mem_append, ← cont_ids]

theorem mustEvict_iff (h : Inv cs as gs d s) (r : Req) :
    algo.mustEvict s r = true ↔ charge 0 (cached s) + r.size > cs := by
  simp only [Algo.mustEvict, decide_eq_true_eq, h.occ]
  have e1 : (algo.cacheSize s : Int) = cs := by show (s.cacheSize : Int) = cs; rw [h.csz]
  have e2 : (algo.md s : Int) = 0 := rfl
  rw [e1, e2]
  omega

theorem ainFind (h : Inv cs as gs d s) (r : Req) : FIFO.algo.find s.ain r false = .ok (decide (r.id ∈ s.ain.objs.map (·.id)), s.ain) := by
  have := h.ain.findFIFO_false r
  simp only [QState.findFIFO] at this
  simp only [FIFO.algo, FIFO.find]
  rw [this.1, this.2]

theorem find_false (h : Inv cs as gs d s) (r : Req) : find s r false = .ok (decide (r.id ∈ (cached s).ids), s) := by
  have hm := mem_cached s r.id
  rw [find, ainFind h r, Res.bind_ok]
  by_cases h1 : r.id ∈ s.ain.objs.map (·.id)
  · have : r.id ∈ (cached s).ids := hm.2 (Or.inl h1)
    simp only [decide_eq_true h1, Bool.false_eq_true, if_false, if_true, decide_eq_true this]
  · simp only [decide_eq_false h1, Bool.false_eq_true, if_false, h.am.findF r, Res.bind_ok]
    congr 2
    exact decide_eq_decide.2 ⟨fun h => hm.2 (Or.inr h), fun h => (hm.1 h).resolve_left h1⟩

theorem findAin (h : Inv cs as gs d s) {r : Req} (hm : r.id ∈ s.ain.objs.map (·.id)) :
    find s r true = .ok (true, { s with hitOnGhost := false }) := by
  simp only [find, ainFind h r, Res.bind_ok, decide_eq_true hm, if_true]

theorem frame (h : Inv cs as gs d s) (b : Bool) (n : Nat) : Inv cs as gs d { s with hitOnGhost := b, nReq := n } :=
  ⟨h.csz, h.half, h.ain, h.aout, h.am, h.ainz, h.dis, h.cap, h.sep⟩

theorem inv_am (h : Inv cs as gs d s) {g : FIFO.State} {m : Clock.State} {b : Bool} (hg : PInv gs g) (hm : AmOk (cs - as) m)
    (hgs : ∀ i ∈ g.base.cached.ids, i ∈ s.aout.base.cached.ids) (hms : m.base.cached.Subperm s.am.base.cached) :
    Inv cs as gs d { s with hitOnGhost := b, aout := g, am := m } ∧ (cached { s with hitOnGhost := b, aout := g, am := m }).Subperm (cached s) := by
  have hsub : (cont s.ain.objs ++ m.base.cached).Subperm (cached s) := (List.subperm_append_left _).2 hms
  have hsubi : ∀ i ∈ (cont s.ain.objs ++ m.base.cached).map Prod.fst, i ∈ (cached s).ids := by
    intro i hi
    obtain ⟨x, hx, rfl⟩ := List.mem_map.1 hi
    exact List.mem_map.2 ⟨x, hsub.subset hx, rfl⟩
  refine ⟨inv_mk h.csz h.half h.ain hg hm h.ainz ?_ ?_ ?_, hsub⟩
  · intro i hi hi'
    obtain ⟨x, hx, rfl⟩ := List.mem_map.1 hi'
    exact h.dis x.1 hi (List.mem_map.2 ⟨x, hms.subset hx, rfl⟩)
  · exact Nat.le_trans (charge_subperm hsub) h.cap
  · intro hd i hi hi'
    exact h.sep hd i (hgs i hi) (hsubi i hi')

/-- A find with update that does not hit Ain. -/
theorem findAm (h : Inv cs as gs d s) {r : Req} (hm : r.id ∉ s.ain.objs.map (·.id)) :
    ∃ g m, find s r true = .ok (decide (r.id ∈ s.am.base.cached.ids), { s with hitOnGhost := decide (r.id ∈ s.aout.base.cached.ids), aout := g, am := m }) ∧
      Inv cs as gs d { s with hitOnGhost := decide (r.id ∈ s.aout.base.cached.ids), aout := g, am := m } ∧
      g.base.cached.Perm (s.aout.base.cached.filter (fun y => y.1 ≠ r.id)) ∧ m.base.cached.Perm s.am.base.cached ∧
      (r.id ∈ s.am.base.cached.ids → Clock.view m = (clock 1).onHit (Clock.view s.am) r) ∧ (r.id ∉ s.am.base.cached.ids → m = s.am) := by
  obtain ⟨g, g1, g2, g3⟩ := h.aout.fifoRemove r.id
  obtain ⟨m, m1, m2, m3, m4, m5⟩ := h.am.find r
  refine ⟨g, m, ?_, ?_, g3, m3, m4, m5⟩
  · rw [find, ainFind h r, Res.bind_ok]
    simp only [if_true, decide_eq_false hm, Bool.false_eq_true, if_false, g1, Res.bind_ok, m1]
  · refine (inv_am h g2 m2 ?_ m3.subperm).1
    intro i hi
    obtain ⟨x, hx, rfl⟩ := List.mem_map.1 hi
    exact List.mem_map.2 ⟨x, List.mem_of_mem_filter (g3.subset hx), rfl⟩

/-- What is left after dropping the oldest object of Ain. -/
theorem evictAin (h : Inv cs as gs d s) {l : List (Obj Unit)} {o : Obj Unit} (e : s.ain.objs = l ++ [o]) (ho : s.ain.base.occ > (s.ainSize : Int)) (r : Req) :
    ∃ b g a, FIFO.algo.get s.aout o.toReq = .ok (b, g) ∧ evict s r = .ok { s with aout := g, ain := a } ∧ Inv cs as gs d { s with aout := g, ain := a } ∧ a.objs = l := by
  have hal : Rep as 0 s.ain (l ++ [o]) := by rw [← e]; exact h.ain
  obtain ⟨a, a1, a2⟩ := hal.evictTail rfl
  obtain ⟨b, g, g1, g2, g3⟩ := h.aout.fifoGet o.toReq
  have hnl : o.id ∉ l.map (·.id) := by
    have := hal.nodup
    rw [List.map_append, List.nodup_append] at this
    intro hx
    exact this.2.2 o.id hx o.id (by simp) rfl
  have hsub : List.Sublist (cont l ++ s.am.base.cached) (cached s) := by
    rw [cached, e, cont_append]
    exact List.Sublist.append (List.sublist_append_left _ _) (List.Sublist.refl _)
  refine ⟨b, g, a, g1, ?_, ?_, a2.objs⟩
  · rw [evict, if_pos ho, hal.tailObj rfl, Res.bind_ok, g1, Res.bind_ok]
    have : FIFO.algo.evict s.ain r = .ok a := a1
    rw [this, Res.bind_ok]
  · refine inv_mk h.csz h.half a2 g2 h.am h.ainz ?_ (Nat.le_trans (charge_sublist hsub) h.cap) ?_
    · intro i hi
      exact h.dis i (by rw [e]; simp only [List.map_append, List.mem_append]; exact Or.inl hi)
    · intro hd i hi hi'
      rcases g3 i hi with rfl | hi
      · rw [Contents.ids, List.map_append, List.mem_append] at hi'
        rcases hi' with hi' | hi'
        · exact hnl (by rw [← cont_ids]; exact hi')
        · exact h.dis o.id (by rw [e]; simp) hi'
      · exact h.sep hd i hi ((hsub.map _).subset hi')

/-- One call of `evict` on Am. -/
theorem evictAm (h : Inv cs as gs d s) (hne : s.am.base.cached ≠ []) (ho : ¬ s.ain.base.occ > (s.ainSize : Int)) (r : Req) :
    ∃ m v, evict s r = .ok { s with am := m } ∧ Inv cs as gs d { s with am := m } ∧ s.am.base.cached.Perm (v :: m.base.cached) ∧ Clock.view m = clockEvict (Clock.view s.am) := by
  obtain ⟨m, v, m1, hp, m5, m4⟩ := h.am.evict r hne
  refine ⟨m, v, ?_, ?_, m5, m4⟩
  · rw [evict, if_neg ho, m1, Res.bind_ok]
  · have := (inv_am (b := s.hitOnGhost) h h.aout hp (fun i hi => hi) ((List.Sublist.subperm (List.sublist_cons_self _ _)).trans m5.symm.subperm)).1
    exact this

/-- One call of `evict` that finds something to evict. -/
theorem evict_spec (h : Inv cs as gs d s) (r : Req) (hne : s.ain.base.occ > (s.ainSize : Int) ∨ s.am.base.cached ≠ []) :
    ∃ s' v, evict s r = .ok s' ∧ Inv cs as gs d s' ∧ (cached s).Perm (v :: cached s') ∧ measure s' < measure s ∧
      s'.hitOnGhost = s.hitOnGhost ∧ (∀ i ∈ s'.aout.base.cached.ids, i ∈ s.aout.base.cached.ids ∨ i ∈ (cached s).ids) ∧
      (∀ i ∈ s'.am.base.cached.ids, i ∈ s.am.base.cached.ids) := by
  by_cases ho : s.ain.base.occ > (s.ainSize : Int)
  · have hpos : 0 < charge 0 (cont s.ain.objs) := by rw [h.ain.occ] at ho; omega
    obtain ⟨l, o, e⟩ := exists_last_of_charge hpos
    obtain ⟨b, g, a, g1, k1, k2, k3⟩ := evictAin h e ho r
    refine ⟨_, (o.id, o.size), k1, k2, ?_, ?_, rfl, ?_, fun i hi => hi⟩
    · have e2 : cached { s with aout := g, ain := a } = cont l ++ s.am.base.cached := by simp only [cached, k3]
      have e1 : cached s = cont l ++ (o.id, o.size) :: s.am.base.cached := by rw [cached, e]; simp
      rw [e2, e1]
      exact List.perm_middle
    · simp only [measure, k3, e, List.length_append, List.length_cons, List.length_nil]; omega
    · intro i hi
      obtain ⟨_, _, g1', _, g3⟩ := h.aout.fifoGet o.toReq
      rw [g1] at g1'; cases g1'
      rcases g3 i hi with rfl | hi
      · exact Or.inr ((mem_cached s _).2 (Or.inl (by rw [e]; simp [Obj.toReq])))
      · exact Or.inl hi
  · obtain ⟨m, v, k1, k2, k3, _⟩ := evictAm h (hne.resolve_left ho) ho r
    refine ⟨_, v, k1, k2, ?_, ?_, rfl, fun i hi => Or.inl hi, ?_⟩
    · show (cont s.ain.objs ++ s.am.base.cached).Perm (v :: (cont s.ain.objs ++ m.base.cached))
      exact (k3.append_left _).trans List.perm_middle
    · have := k3.length_eq
      simp only [measure]
      simp only [List.length_cons] at this
      omega
    · intro i hi
      exact (k3.map Prod.fst).symm.subset (List.mem_cons_of_mem _ hi)

/-- During a `get` there is something to evict. -/
theorem canEvict (h : Inv cs as gs d s) (r : Req) (hr : r.size ≤ as) (hme : algo.mustEvict s r = true) :
    s.ain.base.occ > (s.ainSize : Int) ∨ s.am.base.cached ≠ [] := by
  rw [mustEvict_iff h r] at hme
  by_cases ho : s.ain.base.occ > (s.ainSize : Int)
  · exact Or.inl ho
  · right
    intro h0
    rw [cached, h0, charge_append] at hme
    rw [h.ain.occ, h.ainz] at ho
    have := h.half
    simp only [charge] at hme
    omega

theorem insert_spec (h : Inv cs as gs d s) (r : Req) (hn : r.id ∉ (cached s).ids)
    (hroom : algo.mustEvict s r = false) (hg : d → r.id ∉ s.aout.base.cached.ids) :
    ∃ s', insert s r = .ok s' ∧ Inv cs as gs d s' ∧ s'.aout = s.aout ∧
      ((s.hitOnGhost = true ∧ s'.ain = s.ain ∧
          ((¬ r.size ≤ cs - as ∧ s'.am.base.cached.Perm s.am.base.cached) ∨
           (r.size ≤ cs - as ∧ ∃ vs kept, s.am.base.cached.Perm (vs ++ kept) ∧ s'.am.base.cached.Perm ((r.id, r.size % u32) :: kept) ∧
              ∀ us v, vs = us ++ [v] → charge 0 (v :: kept) + r.size > cs - as))) ∨
       (s.hitOnGhost = false ∧ s'.am = s.am ∧ s'.ain.objs = Obj.ofReq () r :: s.ain.objs)) := by
  rw [mem_cached, not_or] at hn
  have hroom' : charge 0 (cached s) + r.size ≤ cs := by
    have := (not_congr (mustEvict_iff h r)).1 (by rw [hroom]; simp)
    omega
  have hmod : r.size % u32 ≤ r.size := Nat.mod_le _ _
  have hch : charge 0 (cached s) = charge 0 (cont s.ain.objs) + charge 0 s.am.base.cached := by
    rw [cached, charge_append]
  by_cases hh : s.hitOnGhost = true
  · rcases (MainCache.clock (cs - as) 1).getMiss r h.am hn.2 with ⟨hsz, m, m1, m2, m3⟩ | ⟨hsz, m, vs, kept, m1, m2, m3, m4, _, m5⟩
    · refine ⟨{ s with hitOnGhost := false, am := m }, by simp [insert, hh, m1], ?_, rfl, Or.inl ⟨hh, rfl, Or.inl ⟨hsz, m3⟩⟩⟩
      exact (inv_am (b := false) h h.aout m2 (fun i hi => hi) m3.subperm).1
    · refine ⟨{ s with hitOnGhost := false, am := m }, by simp [insert, hh, m1], ?_, rfl, Or.inl ⟨hh, rfl, Or.inr ⟨hsz, vs, kept, m3, m4, m5⟩⟩⟩
      have hkept : ∀ i ∈ kept.map Prod.fst, i ∈ s.am.base.cached.ids := by
        intro i hi
        refine (m3.map Prod.fst).symm.subset ?_
        rw [List.map_append]; exact List.mem_append_right _ hi
      have hm4 : ∀ i ∈ m.base.cached.ids, i = r.id ∨ i ∈ s.am.base.cached.ids := by
        intro i hi
        have := (m4.map Prod.fst).subset hi
        rw [List.map_cons, List.mem_cons] at this
        exact this.imp id (hkept i)
      refine inv_mk h.csz h.half h.ain h.aout m2 h.ainz ?_ ?_ ?_
      · intro i hi hi'
        rcases hm4 i hi' with rfl | hi'
        · exact hn.1 hi
        · exact h.dis i hi hi'
      · have e1 := charge_perm (md := 0) m3
        have e2 := charge_perm (md := 0) m4
        rw [charge_append] at e1
        rw [charge_append]
        simp only [charge] at e2 ⊢
        omega
      · intro hd i hi hi'
        rw [Contents.ids, List.map_append, List.mem_append] at hi'
        rcases hi' with hi' | hi'
        · exact h.sep hd i hi ((mem_cached s i).2 (Or.inl (by rw [← cont_ids]; exact hi')))
        · rcases hm4 i hi' with rfl | hi'
          · exact hg hd hi
          · exact h.sep hd i hi ((mem_cached s i).2 (Or.inr hi'))
  · have hh' : s.hitOnGhost = false := by simpa using hh
    obtain ⟨a, k1, k2⟩ := h.ain.insert () r hn.1 (sizeOk_zero r)
    refine ⟨{ s with ain := a }, ?_, ?_, rfl, Or.inr ⟨hh', rfl, k2.objs⟩⟩
    · have : FIFO.algo.insert s.ain r = .ok a := k1
      simp [insert, hh', this]
    · refine inv_mk h.csz h.half k2 h.aout h.am h.ainz ?_ ?_ ?_
      · intro i hi
        simp only [List.map_cons, List.mem_cons] at hi
        rcases hi with hi | hi
        · rw [show i = r.id from hi]; exact hn.2
        · exact h.dis i hi
      · rw [charge_append, cont_cons, charge]
        simp only [Obj.ofReq]
        omega
      · intro hd i hi hi'
        rw [Contents.ids, List.map_append, List.mem_append, cont_cons, List.map_cons, List.mem_cons] at hi'
        rcases hi' with (hi' | hi') | hi'
        · exact hg hd (by rw [← show i = r.id from hi']; exact hi)
        · exact h.sep hd i hi ((mem_cached s i).2 (Or.inl (by rw [← cont_ids]; exact hi')))
        · exact h.sep hd i hi ((mem_cached s i).2 (Or.inr hi'))

theorem filter_absent {c c' : Contents} {id : ObjId} (h : c'.Perm (c.filter (fun x => x.1 ≠ id))) : c'.Subperm c :=
  h.subperm.trans (List.Sublist.subperm List.filter_sublist)

/-- `remove` in general. -/
theorem remove_spec (h : Inv cs as gs d s) (id : ObjId) :
    ∃ s', remove s id = .ok (decide (id ∈ (cached s).ids ∨ id ∈ s.aout.base.cached.ids), s') ∧ Inv cs as gs d s' ∧
      (cached s').Subperm (cached s) ∧ (d → (cached s').Perm ((cached s).filter (fun x => x.1 ≠ id))) ∧
      (∀ i ∈ s'.am.base.cached.ids, i ∈ s.am.base.cached.ids) ∧
      (∀ i ∈ s'.aout.base.cached.ids, i ∈ s.aout.base.cached.ids) ∧ (d → id ∉ s'.aout.base.cached.ids) := by
  have hids := mem_cached s
  by_cases hf : id ∈ s.ain.objs.map (·.id)
  · obtain ⟨a, k1, k2⟩ := h.ain.remove_hit hf
    have hnm := h.dis id hf
    have ec : cont (delL id s.ain.objs) ++ s.am.base.cached = (cached s).filter (fun x => x.1 ≠ id) := by
      rw [cached, List.filter_append, delL_cont]
      congr 1
      symm
      exact filter_ids_eq hnm
    have hinc : id ∈ (cached s).ids := (hids id).2 (Or.inl hf)
    have ec' : cached { s with ain := a } = (cached s).filter (fun x => x.1 ≠ id) := by
      rw [← ec]; unfold cached; simp only; rw [k2.objs]
    have hsub : List.Sublist (cont (delL id s.ain.objs) ++ s.am.base.cached) (cached s) := by rw [ec]; exact List.filter_sublist
    refine ⟨{ s with ain := a }, ?_, ?_, by rw [ec']; exact List.Sublist.subperm List.filter_sublist, fun _ => by rw [ec'], fun i hi => hi, fun i hi => hi,
      fun hd hx => h.sep hd id hx hinc⟩
    · have : FIFO.algo.remove s.ain id = .ok (true, a) := k1
      simp [remove, this, hinc]
    · refine inv_mk h.csz h.half k2 h.aout h.am h.ainz ?_ (Nat.le_trans (charge_sublist hsub) h.cap) ?_
      · intro i hi
        rw [delL_ids] at hi
        exact h.dis i (List.mem_of_mem_filter hi)
      · intro hd i hi hi'
        exact h.sep hd i hi ((hsub.map _).subset hi')
  · have k1 : FIFO.algo.remove s.ain id = .ok (false, s.ain) := h.ain.remove_miss hf
    obtain ⟨g, g1, g2, g3⟩ := h.aout.fifoRemove id
    have hgsub : ∀ i ∈ g.base.cached.ids, i ∈ s.aout.base.cached.ids := by
      intro i hi
      obtain ⟨x, hx, rfl⟩ := List.mem_map.1 hi
      exact List.mem_map.2 ⟨x, List.mem_of_mem_filter (g3.subset hx), rfl⟩
    have hgone : id ∉ g.base.cached.ids := by
      intro hi
      obtain ⟨x, hx, rfl⟩ := List.mem_map.1 hi
      have := List.of_mem_filter (g3.subset hx)
      simp at this
    by_cases hgm : id ∈ s.aout.base.cached.ids
    · obtain ⟨j1, j2⟩ := inv_am (b := s.hitOnGhost) h g2 h.am hgsub (List.Subperm.refl _)
      refine ⟨{ s with aout := g }, ?_, j1, j2, ?_, fun i hi => hi, hgsub, fun _ => hgone⟩
      · simp only [remove, k1, Res.bind_ok, Bool.false_eq_true, if_false, g1, decide_eq_true hgm, if_true, decide_eq_true (Or.inr hgm : id ∈ (cached s).ids ∨ id ∈ s.aout.base.cached.ids)]
      · intro hd
        have hnc := h.sep hd id hgm
        rw [filter_ids_eq hnc]
        exact List.Perm.refl _
    · obtain ⟨m, m1, m2, m3⟩ := (MainCache.clock (cs - as) 1).remove id h.am
      obtain ⟨j1, j2⟩ := inv_am (b := s.hitOnGhost) h g2 m2 hgsub (filter_absent m3)
      refine ⟨{ s with aout := g, am := m }, ?_, j1, j2, ?_, ?_, hgsub, fun _ => hgone⟩
      · simp only [remove, k1, Res.bind_ok, Bool.false_eq_true, if_false, g1, decide_eq_false hgm, m1]
        congr 2
        refine decide_eq_decide.2 ⟨fun hx => Or.inl ((hids id).2 (Or.inr hx)), fun hx => ?_⟩
        rcases hx with hx | hx
        · exact ((hids id).1 hx).resolve_left hf
        · exact absurd hx hgm
      · intro _
        show (cont s.ain.objs ++ m.base.cached).Perm _
        rw [cached, List.filter_append, filter_ids_eq (by rw [cont_ids]; exact hf)]
        exact m3.append_left _
      · intro i hi
        obtain ⟨x, hx, rfl⟩ := List.mem_map.1 hi
        exact List.mem_map.2 ⟨x, List.mem_of_mem_filter (m3.subset hx), rfl⟩

end

/-- What `get` needs when it starts evicting. -/
def Ready (as : Nat) (d : Prop) (s : State) (r : Req) : Prop := r.size ≤ as ∧ (d → r.id ∉ s.aout.base.cached.ids)

theorem bump_inv {cs as gs : Nat} {d : Prop} {s : State} (h : Inv cs as gs d s) : Inv cs as gs d (algo.bump s) := frame h s.hitOnGhost (s.nReq + 1)

theorem findMiss {cs as gs : Nat} {d : Prop} {s : State} (h : Inv cs as gs d s) (r : Req) (hn : r.id ∉ (cached s).ids) :
    ∃ g m, find s r true = .ok (false, { s with hitOnGhost := decide (r.id ∈ s.aout.base.cached.ids), aout := g, am := m }) ∧
      Inv cs as gs d { s with hitOnGhost := decide (r.id ∈ s.aout.base.cached.ids), aout := g, am := m } ∧
      (cached { s with hitOnGhost := decide (r.id ∈ s.aout.base.cached.ids), aout := g, am := m }).Perm (cached s) ∧ m = s.am ∧
      r.id ∉ g.base.cached.ids ∧ (∀ i ∈ g.base.cached.ids, i ∈ s.aout.base.cached.ids) := by
  rw [mem_cached, not_or] at hn
  obtain ⟨g, m, k1, k2, k3, k4, _, k6⟩ := findAm h hn.1
  rw [decide_eq_false hn.2] at k1
  refine ⟨g, m, k1, k2, k4.append_left _, k6 hn.2, ?_, ?_⟩
  · intro hi
    obtain ⟨x, hx, hxe⟩ := List.mem_map.1 hi
    have := List.of_mem_filter (k3.subset hx)
    simp [hxe] at this
  · intro i hi
    obtain ⟨x, hx, rfl⟩ := List.mem_map.1 hi
    exact List.mem_map.2 ⟨x, List.mem_of_mem_filter (k3.subset hx), rfl⟩

theorem medium {cs as : Nat} (gs : Nat) (p : Perms) (hp : p.ev = false) :
    Medium algo cached (Inv cs as gs (p.ins = false)) (Ready as (p.ins = false)) measure cs 0 p (fun _ => True) where
  csz := fun h => h.csz
  mdz := fun _ => rfl
  nodup := fun h => h.nodup
  occ := fun h => h.occ
  nObj := fun {s} h => by
    show s.ain.base.nObj + s.am.base.nObj = _
    rw [h.ain.nObj, h.am.nObj, cached, List.length_append, cont_length]; push_cast; rfl
  cap := fun h => by rw [h.occ]; have := h.cap; omega
  bump := fun h => ⟨bump_inv h, rfl⟩
  findF := fun _ _ r h => find_false h r
  findHit := fun {s} r h hin _ => by
    by_cases hf : r.id ∈ s.ain.objs.map (·.id)
    · exact ⟨_, findAin h hf, frame h false s.nReq, List.Subperm.refl _⟩
    · obtain ⟨g, m, k1, k2, k3, k4, _⟩ := findAm h hf
      have hin' := ((mem_cached s r.id).1 hin).resolve_left hf
      rw [decide_eq_true hin'] at k1
      exact ⟨_, k1, k2, (k4.append_left _).subperm⟩
  findMiss := fun {s} r h hn _ => by
    obtain ⟨g, m, k1, k2, k3, _, k5, _⟩ := findMiss h r hn
    refine ⟨_, k1, k2, k3, k2, k3, ?_⟩
    intro hc _
    refine ⟨?_, fun _ => k5⟩
    simp only [algo, canInsert, decide_eq_true_eq] at hc
    rw [h.ain.csz] at hc
    exact hc
  fuel := fun {s} h => by
    show s.ain.objs.length + s.am.base.cached.length ≤ s.ain.base.tbl.length + s.am.base.tbl.length
    rw [h.ain.perm.length_eq]
    simp [Base.cached]
  evictLoop := fun {s} r h _ hr hn hme => by
    obtain ⟨s', v, k1, k2, k3, k4, k5, k6, _⟩ := evict_spec h r (canEvict h r hr.1 hme)
    refine ⟨s', k1, k2, ⟨hr.1, fun hd hi => ?_⟩, (List.Sublist.subperm (List.sublist_cons_self _ _)).trans k3.symm.subperm, k4⟩
    rcases k6 _ hi with hi | hi
    · exact hr.2 hd hi
    · exact hn hi
  insert := fun {s} r h _ hr hn hme => by
    obtain ⟨s', k1, k2, _, k3⟩ := insert_spec h r hn hme hr.2
    refine ⟨s', k1, k2, ?_⟩
    rcases k3 with ⟨_, e1, ⟨_, e2⟩ | ⟨_, vs, kept, e2, e3, _⟩⟩ | ⟨_, e1, e2⟩
    · unfold cached; rw [e1]
      exact (e2.append_left _).subperm.trans (List.Sublist.subperm (List.sublist_cons_self _ _))
    · unfold cached; rw [e1]
      have : (cont s.ain.objs ++ s'.am.base.cached).Perm ((r.id, r.size % u32) :: (cont s.ain.objs ++ kept)) := (e3.append_left _).trans List.perm_middle
      refine this.subperm.trans ((List.subperm_cons _).2 ((List.subperm_append_left _).2 ?_))
      exact (List.Sublist.subperm (List.sublist_append_right _ _)).trans e2.symm.subperm
    · unfold cached; rw [e1, e2]; exact List.Subperm.refl _
  userInsert := fun hins {s} r h _ hn hme => by
    obtain ⟨s', k1, k2, _, k3⟩ := insert_spec h r hn hme (by rw [hins]; simp)
    refine ⟨s', k1, k2, ?_⟩
    rcases k3 with ⟨_, e1, ⟨_, e2⟩ | ⟨_, vs, kept, e2, e3, _⟩⟩ | ⟨_, e1, e2⟩
    · unfold cached; rw [e1]
      exact (e2.append_left _).subperm.trans (List.Sublist.subperm (List.sublist_cons_self _ _))
    · unfold cached; rw [e1]
      have : (cont s.ain.objs ++ s'.am.base.cached).Perm ((r.id, r.size % u32) :: (cont s.ain.objs ++ kept)) := (e3.append_left _).trans List.perm_middle
      refine this.subperm.trans ((List.subperm_cons _).2 ((List.subperm_append_left _).2 ?_))
      exact (List.Sublist.subperm (List.sublist_append_right _ _)).trans e2.symm.subperm
    · unfold cached; rw [e1, e2]; exact List.Subperm.refl _
  remove := fun _ {s} id h => by
    obtain ⟨s', k1, k2, k3, _⟩ := remove_spec h id
    exact ⟨_, s', k1, k2, k3⟩
  evict := fun he => by rw [hp] at he; simp at he
  hitPerm := fun {s s'} r h hf => by
    by_cases hm : r.id ∈ s.ain.objs.map (·.id)
    · rw [show algo.find s r true = find s r true from rfl, findAin h hm] at hf
      cases hf
      exact List.Perm.refl _
    · obtain ⟨g, m, k1, k2, k3, k4, _⟩ := findAm h hm
      rw [show algo.find s r true = find s r true from rfl, k1] at hf
      injection hf with hf
      injection hf with _ hf
      rw [← hf]
      exact k4.append_left _
  evictAtMostOne := fun {s s'} r h _ hr hn hme he => by
    obtain ⟨s'', v, k1, k2, k3, _⟩ := evict_spec h r (canEvict h r hr.1 hme)
    rw [show algo.evict s r = evict s r from rfl, k1] at he
    cases he
    exact ⟨[v], by simp, k3⟩

/-! ### Whole `get` calls -/

theorem evictLoop_rel {cs as gs : Nat} {d : Prop} (r : Req) (hr : r.size ≤ as) : ∀ (n : Nat) (s s' : State), Inv cs as gs d s →
    algo.evictLoop r n s = .ok s' → Inv cs as gs d s' ∧ s'.hitOnGhost = s.hitOnGhost ∧ (∀ i ∈ s'.am.base.cached.ids, i ∈ s.am.base.cached.ids) := by
  intro n
  induction n with
  | zero =>
    intro s s' h he
    simp only [Algo.evictLoop] at he
    split at he
    · simp at he
    · cases he; exact ⟨h, rfl, fun i hi => hi⟩
  | succ n ih =>
    intro s s' h he
    simp only [Algo.evictLoop] at he
    split at he
    · rename_i hme
      obtain ⟨s1, v, k1, k2, k3, k4, k5, k6, k7⟩ := evict_spec h r (canEvict h r hr hme)
      rw [show algo.evict s r = evict s r from rfl, k1, Res.bind_ok] at he
      obtain ⟨e1, e2, e3⟩ := ih s1 s' k2 he
      exact ⟨e1, e2.trans k5, fun i hi => k7 i (e3 i hi)⟩
    · cases he; exact ⟨h, rfl, fun i hi => hi⟩

/-- A miss in detail. -/
theorem get_miss {cs as gs : Nat} {p : Perms} (hp : p.ev = false) {s : State} {r : Req}
    (h : Inv cs as gs (p.ins = false) s) (hin : r.id ∉ (cached s).ids) :
    (¬ r.size ≤ as → ∃ s', algo.get s r = .ok (false, s') ∧ s'.ain = s.ain ∧ s'.am = s.am) ∧
    (r.size ≤ as → ∃ s' vs kept ws, algo.get s r = .ok (false, s') ∧ (cached s).Perm (vs ++ ws ++ kept) ∧
      (cached s').Perm ((r.id, r.size % u32) :: kept) ∧
      (∀ us v, vs = us ++ [v] → charge 0 (v :: (ws ++ kept)) + r.size > cs) ∧
      (∀ us v, ws = us ++ [v] → ∃ am', (∀ x ∈ am', x ∈ s.am.base.cached) ∧ v ∈ s.am.base.cached ∧ s'.am.base.cached.Perm ((r.id, r.size % u32) :: am') ∧ charge 0 (v :: am') + r.size > cs - as) ∧
      (∀ w ∈ ws, w ∈ s.am.base.cached) ∧
      (ws ≠ [] → r.id ∈ s.aout.base.cached.ids) ∧
      (r.id ∈ s.aout.base.cached.ids → r.id ∈ s'.am.base.cached.ids) ∧
      (r.id ∉ s.aout.base.cached.ids → ∃ l, s'.ain.objs = Obj.ofReq () r :: l) ∧
      (∀ i ∈ s'.am.base.cached.ids, i ∈ s.am.base.cached.ids ∨ (i = r.id ∧ r.id ∈ s.aout.base.cached.ids))) := by
  have C := medium (cs := cs) (as := as) gs p hp
  obtain ⟨s1, hf, hi1, hcase⟩ := C.miss r trivial h hin
  obtain ⟨g, m, k1, k2, k3, k4, k5, k6⟩ := findMiss (bump_inv h) r hin
  rw [show algo.find (algo.bump s) r true = find (algo.bump s) r true from rfl, k1] at hf
  injection hf with hf
  injection hf with _ hf
  have hflag : s1.hitOnGhost = decide (r.id ∈ s.aout.base.cached.ids) := by rw [← hf]; rfl
  have hain : s1.ain = s.ain := by rw [← hf]; rfl
  have ham : s1.am = s.am := by rw [← hf]; exact k4
  have hcan : algo.canInsert s1 r = (decide (r.size ≤ as), s1) := by
    show (decide (r.size ≤ s1.ain.base.cacheSize), s1) = _
    rw [hi1.ain.csz]
  rw [hcan] at hcase
  simp only at hcase
  rcases hcase with ⟨hno, hg', _⟩ | ⟨hyes, s3, s4, vs, hg', h3i, hrd, hn3, hme3, hins, _, hloop, hp3, hlast⟩
  · have hle : ¬ r.size ≤ as := by simpa using hno
    exact ⟨fun _ => ⟨s1, hg', hain, ham⟩, fun hx => absurd hx hle⟩
  · have hle : r.size ≤ as := by simpa using hyes
    refine ⟨fun hx => absurd hle hx, fun _ => ?_⟩
    obtain ⟨_, e2, e3⟩ := evictLoop_rel r hle _ _ _ hi1 hloop
    rw [ham] at e3
    rw [hflag] at e2
    obtain ⟨s4', q1, q2, q3, q4⟩ := insert_spec h3i r hn3 hme3 hrd.2
    rw [show algo.insert s3 r = insert s3 r from rfl, q1] at hins
    cases hins
    have hsub3 : ∀ x ∈ cached s3, x ∈ cached s := fun x hx => hp3.symm.subset (List.mem_append_right _ hx)
    have ham3 : ∀ x ∈ s3.am.base.cached, x ∈ s.am.base.cached := by
      intro x hx
      have h1 : x ∈ cached s := hsub3 x (List.mem_append_right _ hx)
      have h2 : x.1 ∈ s.am.base.cached.ids := e3 x.1 (List.mem_map_of_mem hx)
      rcases List.mem_append.1 h1 with h1 | h1
      · exact absurd h2 (h.dis x.1 (by rw [← cont_ids]; exact List.mem_map_of_mem h1))
      · exact h1
    rcases q4 with ⟨hh, e1, ⟨hsz, _⟩ | ⟨hsz, ws, kept, w1, w2, w3⟩⟩ | ⟨hh, e1, e4⟩
    · have := h.half; omega
    · rw [hh] at e2
      have hgm : r.id ∈ s.aout.base.cached.ids := of_decide_eq_true e2.symm
      have hc3 : (cached s3).Perm (ws ++ (cont s3.ain.objs ++ kept)) := by
        unfold cached
        refine (w1.append_left _).trans ?_
        rw [← List.append_assoc, ← List.append_assoc]
        exact List.perm_append_comm.append_right _
      refine ⟨s4, vs, cont s3.ain.objs ++ kept, ws, hg', ?_, ?_, ?_, ?_, ?_, fun _ => hgm, ?_, fun hx => absurd hgm hx, ?_⟩
      · rw [List.append_assoc]; exact hp3.trans (hc3.append_left _)
      · unfold cached; rw [e1]
        exact (w2.append_left _).trans List.perm_middle
      · intro us v e
        have := hlast us v e
        rw [charge_perm (hc3.cons v)] at this
        simpa using this
      · intro us v e
        refine ⟨kept, fun x hx => ham3 x (w1.symm.subset (List.mem_append_right _ hx)), ham3 v (w1.symm.subset (by rw [e]; simp)), w2, w3 us v e⟩
      · intro w hw
        exact ham3 w (w1.symm.subset (List.mem_append_left _ hw))
      · intro _
        exact (w2.map Prod.fst).symm.subset List.mem_cons_self
      · intro i hi
        have := (w2.map Prod.fst).subset hi
        rw [List.map_cons, List.mem_cons] at this
        rcases this with rfl | hi
        · exact Or.inr ⟨rfl, hgm⟩
        · refine Or.inl (e3 i ((w1.map Prod.fst).symm.subset ?_))
          rw [List.map_append]; exact List.mem_append_right _ hi
    · rw [hh] at e2
      have hgm : r.id ∉ s.aout.base.cached.ids := of_decide_eq_false e2.symm
      refine ⟨s4, vs, cached s3, [], hg', by simpa using hp3, ?_, by simpa using hlast, by simp, by simp, by simp, fun hx => absurd hx hgm, fun _ => ⟨_, e4⟩, ?_⟩
      · unfold cached; rw [e1, e4]; exact List.Perm.refl _
      · intro i hi
        rw [e1] at hi
        exact Or.inl (e3 i hi)

/-- How objects get into Am. -/
theorem step_am {cs as gs : Nat} {p : Perms} (hp : p.ev = false) (hq : p.ins = false) {s s' : State} {op : Op} {b : Bool}
    (h : Inv cs as gs (p.ins = false) s) (hop : Calls p (fun _ => True) op) (hs : algo.step s op = .ok (b, s')) (i : ObjId)
    (hi : i ∈ s'.am.base.cached.ids) : i ∈ s.am.base.cached.ids ∨ (i ∈ s.aout.base.cached.ids ∧ ∃ r, op = .get r ∧ r.id = i) := by
  have hfind : ∀ {t : State}, Inv cs as gs (p.ins = false) t → ∀ {r : Req} {b : Bool} {t' : State}, algo.find t r true = .ok (b, t') →
      ∀ i ∈ t'.am.base.cached.ids, i ∈ t.am.base.cached.ids := by
    intro t ht r b t' hf i hi
    by_cases hm : r.id ∈ t.ain.objs.map (·.id)
    · rw [show algo.find t r true = find t r true from rfl, findAin ht hm] at hf
      cases hf
      exact hi
    · obtain ⟨g, m, k1, k2, k3, k4, _⟩ := findAm ht hm
      rw [show algo.find t r true = find t r true from rfl, k1] at hf
      injection hf with hf
      injection hf with _ hf
      rw [← hf] at hi
      exact (k4.map Prod.fst).subset hi
  cases op with
  | get r =>
    have hs' : algo.get s r = .ok (b, s') := hs
    by_cases hin : r.id ∈ (cached s).ids
    · obtain ⟨s1, hf, _⟩ := (medium (cs := cs) (as := as) gs p hp).findHit r (bump_inv h) hin (Fresh.bump trivial h)
      rw [get_hit hf] at hs'
      cases hs'
      exact Or.inl (hfind (bump_inv h) hf i hi)
    · obtain ⟨g1, g2⟩ := get_miss hp h hin
      by_cases hsz : r.size ≤ as
      · obtain ⟨s'', _, _, _, k1, _, _, _, _, _, _, _, _, k2⟩ := g2 hsz
        rw [k1] at hs'
        cases hs'
        rcases k2 i hi with hi | ⟨rfl, hg⟩
        · exact Or.inl hi
        · exact Or.inr ⟨hg, r, rfl, rfl⟩
      · obtain ⟨s'', k1, _, k3⟩ := g1 hsz
        rw [k1] at hs'
        cases hs'
        rw [k3] at hi
        exact Or.inl hi
  | find r u =>
    cases u with
    | false =>
      have hs' : find s r false = .ok (b, s') := hs
      rw [find_false h] at hs'
      cases hs'
      exact Or.inl hi
    | true => exact Or.inl (hfind h (show algo.find s r true = .ok (b, s') from hs) i hi)
  | remove id =>
    obtain ⟨s'', k1, k2, k3, k4, k5, k6⟩ := remove_spec h id
    have hs' : remove s id = .ok (b, s') := hs
    rw [k1] at hs'
    injection hs' with hs'
    injection hs' with _ hs'
    rw [← hs'] at hi
    exact Or.inl (k5 i hi)
  | evict r => have : p.ev = true := hop; rw [hp] at this; simp at this
  | insert r => have := hop.1; rw [hq] at this; simp at this

end LPTwoQ
end Verif
