import Verif.Algo.LeCaRv0
import Verif.Spec.Experts
import Verif.Base.Medium
import Verif.Proof.Ghost
import Verif.Proof.LFU
import Verif.Proof.Sim
/-!
# LeCaRv0 follows the two experts
-/

namespace Verif.LeCaRv0
open Verif Verif.Spec
open Verif.LeCaR (Arith)
variable {R : Arith}

structure Inv (cs : Nat) (s : State R) : Prop where
  csz : s.out.cacheSize = cs
  mdz : s.out.objMd = 0
  lru : QInv cs 0 s.lru
  lfu : LFU.Inv cs 0 s.lfu
  same : s.lru.base.cached.Perm s.lfu.base.cached
  half : ∀ x ∈ s.lru.base.cached, x.2 ≤ cs / 2
  gl : PInv (cs / 2) s.lruG
  gf : PInv (cs / 2) s.lfuG

abbrev cached (s : State R) : Contents := s.lru.base.cached

/-- the weighing of the model -/
def weigh (R : Arith) : Experts.Weighing R.W := ⟨R.lruWins, R.updLru, R.updLfu⟩

def view (s : State R) : Experts.St R.W :=
  { recent := s.lru.order, frequent := LFU.view s.lfu, pastLru := s.lruG.order, pastLfu := s.lfuG.order, timeLru := s.vtLru, timeLfu := s.vtLfu, w := s.w,
    draws := s.picks, now := s.out.nReq, adm := s.out.adm }

theorem inv_init (cs : Nat) (adm : Adm) (picks : List Nat) (vt0 : ObjId → Int) : Inv cs (init cs adm picks vt0 : State R) :=
  ⟨rfl, rfl, QInv.init cs 0 .none, LFU.inv_init cs 0 .none, List.Perm.refl _, (fun x hx => by simp [init, LRU.init, QState.init, Base.init, Base.cached] at hx), PInv.init _, PInv.init _⟩

section
variable {cs : Nat} {s : State R}

theorem mem_order {gs : Nat} {g : LRU.State} (h : QInv gs 0 g) (id : ObjId) : id ∈ g.order.ids ↔ id ∈ g.base.cached.ids :=
  (h.order_perm.map Prod.fst).mem_iff

theorem lookup_lfu (h : Inv cs s) {id : ObjId} (hn : id ∉ (cached s).ids) : s.lfu.base.lookup id = none := by
  apply lookup_none_iff'.2
  intro hm
  exact hn ((h.same.map Prod.fst).symm.subset hm)

theorem lookup_both (h : Inv cs s) {id : ObjId} (hm : id ∈ (cached s).ids) :
    ∃ o o', s.lru.base.lookup id = some o ∧ s.lfu.base.lookup id = some o' := by
  have h1 : (s.lru.base.lookup id).isSome = true := by rw [lookup_isSome_iff]; simpa using hm
  have h2 : (s.lfu.base.lookup id).isSome = true := by
    rw [lookup_isSome_iff]; simpa using (h.same.map Prod.fst).subset hm
  obtain ⟨o, ho⟩ := Option.isSome_iff_exists.1 h1
  obtain ⟨o', ho'⟩ := Option.isSome_iff_exists.1 h2
  exact ⟨o, o', ho, ho'⟩

theorem find_false (h : Inv cs s) (r : Req) : find s r false = .ok (decide (r.id ∈ (cached s).ids), s) := by
  have h1 := (LRU.strong cs 0).findF (Or.inl rfl) r h.lru
  have h2 := (LFU.strong cs 0).findF (Or.inl rfl) r h.lfu
  simp only [find, h1, h2, Res.bind_ok, Bool.false_eq_true, false_and, if_false]

theorem find_hit (h : Inv cs s) (r : Req) (hm : r.id ∈ (cached s).ids) :
    ∃ s', find s r true = .ok (true, s') ∧ Inv cs s' ∧ (cached s').Perm (cached s) ∧ view s' = Experts.hit (view s) r := by
  obtain ⟨o, o', ho, ho'⟩ := lookup_both h hm
  obtain ⟨l, h1, h2, h3⟩ := (LRU.spec cs 0).findHit r o h.lru ho
  obtain ⟨f, k1, k2, k3⟩ := (LFU.spec cs 0).findHit r o' h.lfu ho'
  obtain ⟨h4, _⟩ := (LRU.sim cs 0).findHit r o h.lru ho h1
  obtain ⟨k4, _⟩ := (LFU.sim cs 0).findHit r o' h.lfu ho' k1
  refine ⟨{ s with lru := l, lfu := f }, ?_, ⟨h.csz, h.mdz, h2, k2, h3.trans (h.same.trans k3.symm), ?_, h.gl, h.gf⟩, h3, ?_⟩
  · simp [find, h1, k1]
  · intro x hx; exact h.half x (h3.subset hx)
  · simp only [view, Experts.hit, h4, k4]

/-- a miss, with what happens to the histories -/
theorem find_miss (h : Inv cs s) (r : Req) (hn : r.id ∉ (cached s).ids) :
    ∃ s', find s r true = .ok (false, s') ∧ Inv cs s' ∧ s'.lru = s.lru ∧ s'.lfu = s.lfu ∧ s'.out = s.out ∧
      view s' = Experts.regret (weigh R) (view s) r.id := by
  have h1 : LRU.algo.find s.lru r true = .ok (false, s.lru) := LRU.find_miss (lookup_none_iff'.2 hn)
  have h2 : LFU.algo.find s.lfu r true = .ok (false, s.lfu) := LFU.find_miss (lookup_lfu h hn)
  have e1 := h.gl.lruFind_false r
  have e2 := h.gf.lruFind_false r
  have m1 := mem_order h.gl.q r.id
  have m2 := mem_order h.gf.q r.id
  by_cases ha : r.id ∈ s.lruG.base.cached.ids
  · obtain ⟨g, k1, k2, _⟩ := h.gl.lruRemove r.id
    obtain ⟨o, ho⟩ := Option.isSome_iff_exists.1 (show (s.lruG.base.lookup r.id).isSome = true by rw [lookup_isSome_iff]; simpa using ha)
    rw [show decide (r.id ∈ s.lruG.base.cached.ids) = true by simpa using ha] at k1
    obtain ⟨k4, _⟩ := (LRU.sim (cs / 2) 0).remove r.id o h.gl.q ho k1
    refine ⟨{ s with w := R.updLru s.w (s.out.nReq - s.vtLru r.id), lruG := g }, ?_, ⟨h.csz, h.mdz, h.lru, h.lfu, h.same, h.half, k2, h.gf⟩, rfl, rfl, rfl, ?_⟩
    · simp [find, h1, h2, history, e1, e2, ha, k1]
    · simp only [view, Experts.regret, weigh, m1, ha, if_true, k4, Spec.lru]
  · by_cases hb : r.id ∈ s.lfuG.base.cached.ids
    · obtain ⟨g, k1, k2, _⟩ := h.gf.lruRemove r.id
      obtain ⟨o, ho⟩ := Option.isSome_iff_exists.1 (show (s.lfuG.base.lookup r.id).isSome = true by rw [lookup_isSome_iff]; simpa using hb)
      rw [show decide (r.id ∈ s.lfuG.base.cached.ids) = true by simpa using hb] at k1
      obtain ⟨k4, _⟩ := (LRU.sim (cs / 2) 0).remove r.id o h.gf.q ho k1
      refine ⟨{ s with w := R.updLfu s.w (s.out.nReq - s.vtLfu r.id), lfuG := g }, ?_, ⟨h.csz, h.mdz, h.lru, h.lfu, h.same, h.half, h.gl, k2⟩, rfl, rfl, rfl, ?_⟩
      · simp [find, h1, h2, history, e1, e2, ha, hb, k1]
      · simp only [view, Experts.regret, weigh, m1, m2, ha, hb, if_true, if_false, k4, Spec.lru]
    · refine ⟨s, ?_, h, rfl, rfl, rfl, ?_⟩
      · simp [find, h1, h2, history, e1, e2, ha, hb]
      · simp only [view, Experts.regret, weigh, m1, m2, ha, hb, if_false]

theorem insert_spec (h : Inv cs s) (r : Req) (hn : r.id ∉ (cached s).ids) (hroom : s.lru.base.occ + r.size ≤ cs) (hh : r.size ≤ cs / 2) :
    ∃ s', insert s r = .ok s' ∧ Inv cs s' ∧ (cached s').Perm ((r.id, r.size % u32) :: cached s) ∧ view s' = Experts.insert (view s) r := by
  have hl := lookup_none_iff'.2 hn
  have hl' := lookup_lfu h hn
  have hocc : s.lfu.base.occ = s.lru.base.occ := by
    rw [h.lru.base.inv.occ_eq, h.lfu.base.inv.occ_eq, h.lru.base.md, h.lfu.base.md, charge_perm h.same]
  obtain ⟨l, h1, h2, h3⟩ := (LRU.spec cs 0).insert r h.lru hl (by simpa using hroom) (sizeOk_zero r)
  obtain ⟨f, k1, k2, k3⟩ := (LFU.spec cs 0).insert r h.lfu hl' (by simpa [hocc] using hroom) (sizeOk_zero r)
  obtain ⟨h4, _⟩ := (LRU.sim cs 0).insert r h.lru hl (by simpa using hroom) (sizeOk_zero r) h1
  obtain ⟨k4, _⟩ := (LFU.sim cs 0).insert r h.lfu hl' (by simpa [hocc] using hroom) (sizeOk_zero r) k1
  refine ⟨{ s with lru := l, lfu := f, out := { s.out with nObj := s.out.nObj + 1 } }, by simp [insert, h1, k1],
    ⟨h.csz, h.mdz, h2, k2, h3.trans ((h.same.cons _).trans k3.symm), ?_, h.gl, h.gf⟩, h3, ?_⟩
  · intro x hx
    rcases List.mem_cons.1 (h3.subset hx) with rfl | hx
    · exact Nat.le_trans (Nat.mod_le _ _) hh
    · exact h.half x hx
  · simp only [view, Experts.insert, h4, k4]

theorem remove_spec (h : Inv cs s) (id : ObjId) :
    ∃ s', remove s id = .ok (decide (id ∈ (cached s).ids), s') ∧ Inv cs s' ∧ (cached s').Perm ((cached s).filter (fun x => x.1 ≠ id)) ∧
      view s' = { view s with recent := (view s).recent.filter (fun x => x.1 ≠ id), frequent := (view s).frequent.filter (fun x => x.id ≠ id) } := by
  obtain ⟨l, h1, h2, h3⟩ := (LRU.spec cs 0).removeFull id h.lru
  obtain ⟨f, k1, k2, k3⟩ := (LFU.spec cs 0).removeFull id h.lfu
  have hs : l.base.cached.Perm f.base.cached := h3.trans ((h.same.filter _).trans k3.symm)
  have hh : ∀ x ∈ l.base.cached, x.2 ≤ cs / 2 := fun x hx => h.half x (List.mem_of_mem_filter (h3.subset hx))
  by_cases hm : id ∈ (cached s).ids
  · obtain ⟨o, o', ho, ho'⟩ := lookup_both h hm
    have hm' : id ∈ s.lfu.base.cached.ids := (h.same.map Prod.fst).subset hm
    simp only [show decide (id ∈ s.lru.base.cached.ids) = true by simpa using hm] at h1
    simp only [show decide (id ∈ s.lfu.base.cached.ids) = true by simpa using hm'] at k1
    obtain ⟨h4, _⟩ := (LRU.sim cs 0).remove id o h.lru ho h1
    obtain ⟨k4, _⟩ := (LFU.sim cs 0).remove id o' h.lfu ho' k1
    refine ⟨{ s with lru := l, lfu := f }, ?_, ⟨h.csz, h.mdz, h2, k2, hs, hh, h.gl, h.gf⟩, h3, ?_⟩
    · simp [remove, h1, k1, ho', hm]
    · simp only [view, h4, k4, Spec.lru, Spec.lfu]
  · have ho := lookup_none_iff'.2 hm
    have ho' := lookup_lfu h hm
    have e1 : LRU.algo.remove s.lru id = .ok (false, s.lru) := QInv.remove_miss ho
    refine ⟨s, ?_, h, ?_, ?_⟩
    · simp [remove, e1, ho', hm]
    · rw [filter_ids_eq hm]
    · have e2 : s.lru.order.filter (fun x => x.1 ≠ id) = s.lru.order := filter_ids_eq (by rw [mem_order h.lru]; exact hm)
      have e3 : (LFU.view s.lfu).filter (fun x => x.id ≠ id) = LFU.view s.lfu := by
        apply List.filter_eq_self.2
        intro x hx
        simp only [ne_eq, decide_not, Bool.not_eq_eq_eq_not, Bool.not_true, decide_eq_false_iff_not]
        rintro rfl
        have : x.entry ∈ s.lfu.base.cached := ((LFU.sim cs 0).contents h.lfu).subset (List.mem_map.2 ⟨x, hx, rfl⟩)
        exact hm ((h.same.map Prod.fst).symm.subset (List.mem_map.2 ⟨_, this, rfl⟩))
      simp only [view, e2, e3]

/-- a victim enters a history -/
theorem remember_spec {gs : Nat} {g : LRU.State} (h : PInv gs g) {o : Req} (hs : o.size ≤ gs) (ho : o.size < u32) :
    ∃ g', remember g o = .ok g' ∧ PInv gs g' ∧ g'.order = Experts.remember gs g.order (o.id, o.size) := by
  obtain ⟨b, g', h1, h2, h3⟩ := Sim.step (LRU.spec gs 0) (LRU.sim gs 0) (.get o) (sizeOk_zero o) h.q
  have h1' : LRU.algo.get g o = .ok (b, g') := h1
  have hp : PInv gs g' := ⟨h2, LRU.adm_get h.adm h1'⟩
  have hord : g'.order = (tget lru gs 0 ⟨g.order, .none⟩ ⟨o.id, o.size, 0⟩).2.pol := by
    have e : tget lru gs 0 ⟨g.order, .none⟩ o = (b, ⟨g'.order, g'.base.adm⟩) := by
      have := h3
      simp only [tstep, tview, h.adm] at this
      exact this
    have e' : (tget lru gs 0 ⟨g.order, .none⟩ ⟨o.id, o.size, 0⟩).2.pol = (tget lru gs 0 ⟨g.order, .none⟩ o).2.pol := by
      simp only [tget, holds, Spec.lru, Adm.admit]
    rw [e', e]
  have hin : o.id ∈ g'.base.cached.ids := by
    rw [← mem_order h2, hord]
    simp only [tget, holds, Spec.lru, Adm.admit, Nat.add_zero, hs, and_self, if_true]
    split
    · rename_i hd
      obtain ⟨x, hx, hxi⟩ := List.mem_map.1 (of_decide_eq_true hd)
      simp only [toFront]
      exact List.mem_map.2 ⟨x, List.mem_append_left _ (List.mem_filter.2 ⟨hx, by simpa using hxi⟩), hxi⟩
    · simp
  refine ⟨g', ?_, hp, hord⟩
  simp only [remember, h1', Res.bind_ok, hp.lruFind_false o, hin, decide_true, if_true]

theorem sub_of_cons {c c' : Contents} {v : ObjId × Nat} (h : c.Perm (v :: c')) : c'.Subperm c :=
  (List.sublist_cons_self v c').subperm.trans h.symm.subperm

theorem fixMin_base (f : LFU.State) : (LFU.fixMin f).base = f.base := by
  unfold LFU.fixMin LFU.updateMin
  split
  · split <;> rfl
  · rfl

theorem order_last {l : LRU.State} {o : Obj Unit} {q : List ObjId} (ho : l.base.lookup o.id = some o) (hq : l.q = q ++ [o.id]) :
    l.order = orderOf l.base q ++ [(o.id, o.size)] := by
  unfold QState.order
  rw [hq, orderOf_append, show orderOf l.base [o.id] = [(o.id, o.size)] by rw [orderOf_cons ho]; rfl]

theorem toReq_small {μ : Type} {o : Obj μ} (h : o.size < u32) : (o.id, o.size) = (o.toReq.id, o.toReq.size) ∧ o.toReq.size < u32 := ⟨rfl, h⟩

/-- one eviction -/
theorem evict_spec (h : Inv cs s) (r : Req) (hne : cached s ≠ []) :
    ∃ s' v, evict s r = .ok s' ∧ Inv cs s' ∧ (cached s).Perm (v :: cached s') ∧ s'.out = s.out ∧
      view s' = Experts.evict (weigh R) (cs / 2) (view s) := by
  have hne1 : s.lru.base.tbl ≠ [] := by intro e; apply hne; simp [cached, Base.cached, e]
  have hne2 : s.lfu.base.tbl ≠ [] := by
    intro e
    have := h.same.length_eq
    simp only [Base.cached, e, List.map_nil, List.length_nil, List.length_map] at this
    exact hne1 (List.length_eq_zero_iff.1 this)
  obtain ⟨hfi, hfv⟩ := LFU.fixMin_keeps h.lfu
  have hfb := fixMin_base s.lfu
  set F := LFU.fixMin s.lfu with hF
  have hneF : F.base.tbl ≠ [] := by rw [hfb]; exact hne2
  obtain ⟨l, o, h1, h2, h3, h4, h5, h6, h7⟩ := h.lru.evictTail_spec hne1
  obtain ⟨f, p, k1, k2, k3, k4, k5, k6, k7, k8, k9, k10, k11⟩ := LFU.evict_spec h.lfu hne2
  have hlo : s.lru.order = orderOf s.lru.base l.q ++ [(o.id, o.size)] := order_last h3 h4
  have hlast : s.lru.order.getLast? = some (o.id, o.size) := by rw [hlo]; simp
  obtain ⟨t, ht⟩ := LFU.view_head h.lfu.toCInv k3 k5 k6
  have hte : LRU.toEvict s.lru = some o.id := by simp [LRU.toEvict, h4]
  have ev1 : LRU.algo.evict s.lru r = .ok l := h1
  have hv1 : l.order = s.lru.order.dropLast := h.lru.order_evict h3 h4 h6
  -- the objects in the other cache
  have ho_in : o.id ∈ (cached s).ids := by
    have := (h5.map Prod.fst).symm.subset (List.mem_cons_self); exact this
  have hp_in : p.id ∈ (cached s).ids := by
    have := (k4.map Prod.fst).symm.subset (List.mem_cons_self)
    exact (h.same.map Prod.fst).symm.subset this
  obtain ⟨_, o', _, ho'⟩ := lookup_both h ho_in
  obtain ⟨p', _, hp', _⟩ := lookup_both h hp_in
  have nd : (cached s).ids.Nodup := (LRU.strong cs 0).nodup h.lru
  have nd' : s.lfu.base.cached.ids.Nodup := (LFU.strong cs 0).nodup h.lfu
  -- removing the LRU victim from LFU
  have hoF : F.base.lookup o.id = some o' := by rw [hfb]; exact ho'
  obtain ⟨f1, r1, r2, r3⟩ := (LFU.spec cs 0).removeFull o.id hfi
  rw [show decide (o.id ∈ F.base.cached.ids) = true by
    rw [hfb]; simpa using (h.same.map Prod.fst).subset ho_in] at r1
  obtain ⟨r4, _⟩ := (LFU.sim cs 0).remove o.id o' hfi hoF r1
  -- removing the LFU victim from LRU
  obtain ⟨l1, q1, q2, q3⟩ := (LRU.spec cs 0).removeFull p.id h.lru
  rw [show decide (p.id ∈ s.lru.base.cached.ids) = true by simpa using hp_in] at q1
  obtain ⟨q4, _⟩ := (LRU.sim cs 0).remove p.id p' h.lru hp' q1
  obtain ⟨f2, v2, e1, e2, e3⟩ := (LFU.spec cs 0).evict r hfi hneF (.inl rfl)
  obtain ⟨e4, _⟩ := (LFU.sim cs 0).evict r hfi hneF e1
  have e4' : LFU.view f2 = (LFU.view s.lfu).tail := by rw [e4, hfv]; rfl
  -- sizes
  have hom : (o.id, o.size) ∈ cached s := h5.symm.subset (List.mem_cons_self)
  have hpm : (p.id, p.size) ∈ cached s := h.same.symm.subset (k4.symm.subset (List.mem_cons_self))
  have hos : o.size < u32 := by
    have := h.lru.base.inv.small o (lookup_some_mem h3).1; omega
  have hps : p.size < u32 := by
    have := h.lfu.base.inv.small p (lookup_some_mem k3).1; omega
  -- the two results
  have samel : l.base.cached.Perm f1.base.cached := by
    have a1 := filter_cons_self nd h5
    rw [hfb] at r3
    exact (a1.trans (h.same.filter _)).trans r3.symm
  have fcp : f2.base.cached.Perm (s.lfu.base.cached.filter (fun x => x.1 ≠ p.id)) := by
    have ei : ((LFU.view f2).map Item.entry).Perm f2.base.cached := (LFU.sim cs 0).contents e2
    have ev : ((LFU.view s.lfu).map Item.entry).Perm s.lfu.base.cached := (LFU.sim cs 0).contents h.lfu
    rw [e4', ht] at ei
    rw [ht] at ev
    have ev' : s.lfu.base.cached.Perm ((p.id, p.size) :: (t.map Item.entry)) := ev.symm
    have a1 := filter_cons_self nd' ev'
    exact ei.symm.trans a1
  have samef : l1.base.cached.Perm f2.base.cached := (q3.trans (h.same.filter _)).trans fcp.symm
  have keepl : ∀ x ∈ l.base.cached, x.2 ≤ cs / 2 := fun x hx => h.half x (h5.symm.subset (List.mem_cons_of_mem _ hx))
  have keepl1 : ∀ x ∈ l1.base.cached, x.2 ≤ cs / 2 := fun x hx => h.half x (List.mem_of_mem_filter (q3.subset hx))
  have outl1 : (cached s).Perm ((p.id, p.size) :: l1.base.cached) := by
    have a1 := filter_cons_self nd' k4
    have : l1.base.cached.Perm f.base.cached := (q3.trans (h.same.filter _)).trans a1.symm
    exact h.same.trans (k4.trans (this.symm.cons _))
  by_cases hid : o.id = p.id
  · refine ⟨{ s with lru := l, lfu := f1 }, (o.id, o.size), ?_, ⟨h.csz, h.mdz, h2, r2, samel, keepl, h.gl, h.gf⟩, h5, rfl, ?_⟩
    · simp [evict, hte, k11, hid.symm, dropLru, h3, ← hF, r1, ev1]
    · have : LFU.view f1 = (LFU.view s.lfu).tail := by
        rw [r4, hfv, ht]
        have hnd : ((LFU.view s.lfu).map (·.id)).Nodup := by
          have := (LFU.sim cs 0).contents h.lfu
          have := (this.map Prod.fst).nodup_iff.2 nd'
          simpa [Spec.lfu, List.map_map, Function.comp_def] using this
        rw [ht] at hnd
        rw [hid]
        exact LFU.nodup_filter_head hnd
      simp only [view, Experts.evict, hlast, ht, List.head?_cons, cntItem, hid, if_true, hv1, this, List.tail_cons]
  · by_cases hw : R.lruWins s.w (s.picks.headD 0) = true
    · obtain ⟨g, g1, g2, g3⟩ := remember_spec h.gl (o := o.toReq) (h.half _ hom) hos
      refine ⟨{ s with lru := l, lfu := f1, picks := s.picks.tail, lruG := g, vtLru := setVt s.vtLru o.id (stamp s.out.nReq) }, (o.id, o.size), ?_,
        ⟨h.csz, h.mdz, h2, r2, samel, keepl, g2, h.gf⟩, h5, rfl, ?_⟩
      · simp only [evict, hte, k11, if_neg hid, hw, if_true, dropLru, h3, ← hF, r1, ev1, Res.bind_ok, g1]
      · simp only [view, Experts.evict, weigh, hlast, ht, List.head?_cons, cntItem, if_neg hid, hw, if_true, hv1, r4, hfv]
        rw [g3]; rfl
    · obtain ⟨g, g1, g2, g3⟩ := remember_spec h.gf (o := p.toReq) (h.half _ hpm) hps
      have hpF : F.base.lookup p.id = some p := by rw [hfb]; exact k3
      refine ⟨{ s with lru := l1, lfu := f2, picks := s.picks.tail, lfuG := g, vtLfu := setVt s.vtLfu p.id (stamp s.out.nReq) }, (p.id, p.size), ?_,
        ⟨h.csz, h.mdz, q2, e2, samef, keepl1, h.gl, g2⟩, outl1, rfl, ?_⟩
      · simp only [evict, hte, k11, if_neg hid, hw, dropLfu, hpF, ← hF, q1, e1, Res.bind_ok, g1]
        simp
      · simp only [view, Experts.evict, weigh, hlast, ht, List.head?_cons, cntItem, if_neg hid, hw, q4, e4', List.tail_cons]
        rw [g3]; rfl

theorem occ_eq (h : Inv cs s) : s.lru.base.occ = (charge 0 (cached s) : Nat) := by
  rw [h.lru.base.inv.occ_eq, h.lru.base.md]

theorem mustEvict_iff (h : Inv cs s) (r : Req) : (algo R).mustEvict s r = true ↔ cs < charge 0 (cached s) + r.size := by
  simp only [Algo.mustEvict, algo, decide_eq_true_eq, h.csz, h.mdz, occ_eq h]
  omega

theorem frame (h : Inv cs s) (n : Nat) (a : Adm) : Inv cs { s with out := { s.out with nReq := n, adm := a } } :=
  ⟨h.csz, h.mdz, h.lru, h.lfu, h.same, h.half, h.gl, h.gf⟩

theorem can_eq (h : Inv cs s) (r : Req) : (algo R).canInsert s r =
    ((s.out.adm.admit r).1 && decide (r.size ≤ cs), { s with out := { s.out with adm := (s.out.adm.admit r).2 } }) := by
  show ((s.out.canInsertDefault r).1, _) = _
  rw [canInsertDefault_eq]
  simp only [admitsBase, h.csz, h.mdz, Nat.add_zero]

theorem nonempty_of_must (h : Inv cs s) {r : Req} (hr : r.size ≤ cs) (hm : (algo R).mustEvict s r = true) : cached s ≠ [] := by
  intro e
  rw [mustEvict_iff h, e] at hm
  simp only [charge] at hm
  omega

end

/-- objects of at most half of the cache size, or too large for the cache -/
abbrev ok (cs : Nat) : Req → Prop := AnyTwoFit cs 0

theorem ok_half {cs : Nat} {r : Req} (h : ok cs r) (hr : r.size ≤ cs) : r.size ≤ cs / 2 := by
  rcases h.2 with h | h <;> omega

theorem contract (R : Arith) (cs : Nat) :
    Medium (algo R) cached (Inv cs) (fun _ r => r.size ≤ cs / 2) (fun s => s.lru.base.tbl.length) cs 0 {} (ok cs) where
  csz := fun h => h.csz
  mdz := fun h => h.mdz
  nodup := fun h => (LRU.strong cs 0).nodup h.lru
  occ := fun h => occ_eq h
  nObj := fun {s} h => by
    show s.lru.base.nObj = _
    rw [h.lru.base.inv.nObj_eq]; simp [cached, Base.cached]
  cap := fun {s} h => by
    show s.lru.base.occ ≤ _
    have := h.lru.base.inv.cap
    rw [h.lru.base.cs] at this; exact this
  bump := fun {s} h => ⟨frame h (s.out.nReq + 1) s.out.adm, rfl⟩
  findF := fun _ {s} r h => find_false h r
  findHit := fun {s} r h hm _ => by
    obtain ⟨s', h1, h2, h3, _⟩ := find_hit h r hm
    exact ⟨s', h1, h2, h3.subperm⟩
  findMiss := fun {s} r h hn _ => by
    obtain ⟨s1, h1, h2, h3, h4, h5, _⟩ := find_miss h r hn
    have hc : cached s1 = cached s := by simp only [cached, h3]
    refine ⟨s1, h1, h2, by rw [hc], ?_⟩
    rw [can_eq h2]
    refine ⟨frame h2 s1.out.nReq _, by show (cached s1).Perm _; rw [hc], ?_⟩
    intro hh hok
    simp only [Bool.and_eq_true, decide_eq_true_eq] at hh
    exact ok_half hok hh.2
  fuel := fun {s} _ => Nat.le_succ _
  evictLoop := fun {s} r h hok hr hn hm => by
    obtain ⟨s', v, h1, h2, h3, _⟩ := evict_spec h r (nonempty_of_must h (by omega) hm)
    refine ⟨s', h1, h2, hr, (sub_of_cons h3), ?_⟩
    have := h3.length_eq
    simp only [cached, Base.cached, List.length_map, List.length_cons] at this
    omega
  insert := fun {s} r h hok hr hn hm => by
    have hm' : ¬ _ := fun hc => by rw [(mustEvict_iff h r).2 hc] at hm; cases hm
    obtain ⟨s', h1, h2, h3, _⟩ := insert_spec h r hn (by rw [occ_eq h]; omega) hr
    exact ⟨s', h1, h2, h3.subperm⟩
  userInsert := fun _ {s} r h hok hn hm => by
    have hm' : ¬ _ := fun hc => by rw [(mustEvict_iff h r).2 hc] at hm; cases hm
    obtain ⟨s', h1, h2, h3, _⟩ := insert_spec h r hn (by rw [occ_eq h]; omega) (ok_half hok (by omega))
    exact ⟨s', h1, h2, h3.subperm⟩
  remove := fun _ {s} id h => by
    obtain ⟨s', h1, h2, h3, _⟩ := remove_spec h id
    exact ⟨_, s', h1, h2, h3.subperm.trans (List.filter_sublist).subperm⟩
  evict := fun _ {s} r h hne => by
    obtain ⟨s', v, h1, h2, h3, _⟩ := evict_spec h r hne
    exact ⟨s', h1, h2, sub_of_cons h3⟩
  evictAtMostOne := fun {s s'} r h hok hr hn hm he => by
    obtain ⟨s'', v, h1, h2, h3, _⟩ := evict_spec h r (nonempty_of_must h (by omega) hm)
    have he' : evict s r = .ok s' := he
    rw [h1] at he'; cases he'
    exact ⟨[v], by simp, h3⟩
  hitPerm := fun {s s'} r h hf => by
    by_cases hm : r.id ∈ (cached s).ids
    · obtain ⟨s'', h1, _, h3, _⟩ := find_hit h r hm
      have hf' : find s r true = .ok (true, s') := hf
      rw [h1] at hf'; cases hf'
      exact h3
    · obtain ⟨s'', h1, _⟩ := find_miss h r hm
      have hf' : find s r true = .ok (true, s') := hf
      rw [h1] at hf'; cases hf'

theorem insertAlways {cs : Nat} {s s' : State R} {r : Req} (h : Inv cs s) (hr : r.size ≤ cs / 2) (hn : r.id ∉ (cached s).ids)
    (hm : (algo R).mustEvict s r = false) (hi : (algo R).insert s r = .ok s') : (cached s').Perm ((r.id, r.size % u32) :: cached s) := by
  have hm' : ¬ _ := fun hc => by rw [(mustEvict_iff h r).2 hc] at hm; cases hm
  obtain ⟨s'', h1, h2, h3, _⟩ := insert_spec h r hn (by rw [occ_eq h]; omega) hr
  have hi' : insert s r = .ok s' := hi
  rw [h1] at hi'; cases hi'
  exact h3

theorem removeGone {cs : Nat} {s s' : State R} {b : Bool} (id : ObjId) (h : Inv cs s) (hr : (algo R).remove s id = .ok (b, s')) : id ∉ (cached s').ids := by
  obtain ⟨s'', h1, _, h3, _⟩ := remove_spec h id
  have hr' : remove s id = .ok (b, s') := hr
  rw [h1] at hr'; cases hr'
  intro hm
  obtain ⟨x, hx, rfl⟩ := List.mem_map.1 hm
  have := List.of_mem_filter (h3.subset hx)
  simp at this

/-! ### The run of the experts -/

theorem room_spec {cs : Nat} (r : Req) (hr : r.size ≤ cs) : ∀ n m (s : State R), Inv cs s → (cached s).length ≤ n → (cached s).length ≤ m →
    ∃ s', (algo R).evictLoop r n s = .ok s' ∧ Inv cs s' ∧ (algo R).mustEvict s' r = false ∧ (cached s').Subperm (cached s) ∧
      view s' = Experts.room (weigh R) cs r.size m (view s) := by
  intro n
  induction n with
  | zero =>
    intro m s h hn hm
    have h0 : cached s = [] := List.length_eq_zero_iff.1 (by omega)
    have hme : (algo R).mustEvict s r = false := by
      cases hc : (algo R).mustEvict s r with
      | false => rfl
      | true => exact absurd h0 (nonempty_of_must h hr hc)
    refine ⟨s, by simp [Algo.evictLoop, hme], h, hme, List.Subperm.refl _, ?_⟩
    have ho : (view s).recent = [] := by
      have := h.lru.order_perm
      simp only [view]
      rw [show s.lru.base.cached = [] from h0] at this
      exact this.eq_nil
    cases m with
    | zero => rfl
    | succ m => simp [Experts.room, ho, bytes, hr]
  | succ n ih =>
    intro m s h hn hm
    have hb : bytes 0 (view s).recent = charge 0 (cached s) := by
      rw [bytes_eq_charge]; exact charge_perm h.lru.order_perm
    cases hme : (algo R).mustEvict s r with
    | false =>
      refine ⟨s, by simp [Algo.evictLoop, hme], h, hme, List.Subperm.refl _, ?_⟩
      have hm' : ¬ _ := fun hc => by rw [(mustEvict_iff h r).2 hc] at hme; cases hme
      cases m with
      | zero => rfl
      | succ m =>
        simp only [Experts.room, hb]
        rw [if_pos (by omega)]
    | true =>
      obtain ⟨s1, v, h1, h2, h3, h4, h5⟩ := evict_spec h r (nonempty_of_must h hr hme)
      have hl := h3.length_eq
      simp only [List.length_cons] at hl
      have h1' : (algo R).evict s r = .ok s1 := h1
      cases m with
      | zero => omega
      | succ m =>
        obtain ⟨s', k1, k2, k3, k4, k5⟩ := ih m s1 h2 (by omega) (by omega)
        refine ⟨s', by simp [Algo.evictLoop, hme, h1', k1], k2, k3, k4.trans (sub_of_cons h3), ?_⟩
        have hgt := (mustEvict_iff h r).1 hme
        simp only [Experts.room, hb]
        rw [if_neg (by omega), k5, h5]

theorem get_spec {cs : Nat} {s : State R} (h : Inv cs s) (r : Req) (hok : ok cs r) :
    ∃ s', (algo R).get s r = .ok ((Experts.get (weigh R) cs (view s) r).1, s') ∧ Inv cs s' ∧ view s' = (Experts.get (weigh R) cs (view s) r).2 := by
  have hb := frame h (s.out.nReq + 1) s.out.adm
  have hmem : r.id ∈ (view s).recent.ids ↔ r.id ∈ (cached s).ids := mem_order h.lru r.id
  by_cases hm : r.id ∈ (cached s).ids
  · obtain ⟨s', h1, h2, _, h4⟩ := find_hit hb r hm
    have h1' : (algo R).find ((algo R).bump s) r true = .ok (true, s') := h1
    refine ⟨s', ?_, h2, ?_⟩
    · rw [get_hit h1']; simp only [Experts.get, hmem, hm, if_true]
    · rw [h4]; simp only [Experts.get, hmem, hm, if_true]; rfl
  · obtain ⟨s1, h1, h2, h3, h4, h5, h6⟩ := find_miss hb r hm
    have h1' : (algo R).find ((algo R).bump s) r true = .ok (false, s1) := h1
    have hcan := can_eq h2 r
    have hadm : s1.out.adm = s.out.adm := by rw [h5]
    have hv1 : view s1 = Experts.regret (weigh R) { view s with now := (view s).now + 1 } r.id := h6
    rw [hadm] at hcan
    have hv2 : view { s1 with out := { s1.out with adm := (s.out.adm.admit r).2 } } =
        { Experts.regret (weigh R) { view s with now := (view s).now + 1 } r.id with adm := ((view s).adm.admit r).2 } := by
      rw [← hv1]; rfl
    by_cases ha : (s.out.adm.admit r).1 = true ∧ r.size ≤ cs
    · have hc2 : cached { s1 with out := { s1.out with adm := (s.out.adm.admit r).2 } } = cached s := by simp only [cached, h3]
      obtain ⟨s3, k1, k2, k3, k4, k5⟩ := room_spec r ha.2 ((algo R).fuel { s1 with out := { s1.out with adm := (s.out.adm.admit r).2 } }) (view s).recent.length
        _ (frame h2 s1.out.nReq (s.out.adm.admit r).2) (by rw [hc2]; simp only [algo, h3, cached, Base.cached, List.length_map]; omega)
        (by rw [hc2]; exact Nat.le_of_eq h.lru.order_perm.length_eq.symm)
      have hn3 : r.id ∉ (cached s3).ids := notMem_ids_of_subperm k4 (by
        intro hc; apply hm
        have : cached s1 = cached s := by simp only [cached, h3]
        rw [← this]; exact hc)
      have hm' : ¬ _ := fun hc => by rw [(mustEvict_iff k2 r).2 hc] at k3; cases k3
      obtain ⟨s4, l1, l2, _, l4⟩ := insert_spec k2 r hn3 (by rw [occ_eq k2]; omega) (ok_half hok ha.2)
      rw [show ((s.out.adm.admit r).1 && decide (r.size ≤ cs)) = true by simp [ha]] at hcan
      refine ⟨s4, ?_, l2, ?_⟩
      · have := get_accept h1' hcan k1 (show (algo R).insert s3 r = .ok s4 from l1)
        rw [this]
        simp only [Experts.get, hmem, hm, if_false]
        rw [if_pos (show ((view s).adm.admit r).1 = true ∧ r.size ≤ cs from ha)]
      · rw [l4, k5, hv2]
        simp only [Experts.get, hmem, hm, if_false]
        rw [if_pos (show ((view s).adm.admit r).1 = true ∧ r.size ≤ cs from ha)]
    · rw [show ((s.out.adm.admit r).1 && decide (r.size ≤ cs)) = false by
        rw [← Bool.not_eq_true, Bool.and_eq_true, decide_eq_true_eq]; exact ha] at hcan
      refine ⟨_, ?_, frame h2 s1.out.nReq (s.out.adm.admit r).2, ?_⟩
      · rw [get_reject h1' hcan]
        simp only [Experts.get, hmem, hm, if_false]
        rw [if_neg (show ¬ (((view s).adm.admit r).1 = true ∧ r.size ≤ cs) from ha)]
      · rw [hv2]
        simp only [Experts.get, hmem, hm, if_false]
        rw [if_neg (show ¬ (((view s).adm.admit r).1 = true ∧ r.size ≤ cs) from ha)]

theorem step_spec {cs : Nat} {s : State R} (h : Inv cs s) (op : Op) (hop : Calls {} (ok cs) op) :
    ∃ s', (algo R).step s op = .ok ((Experts.step (weigh R) cs (view s) op).1, s') ∧ Inv cs s' ∧ view s' = (Experts.step (weigh R) cs (view s) op).2 := by
  have hmem : ∀ id, id ∈ (view s).recent.ids ↔ id ∈ (cached s).ids := mem_order h.lru
  have hb : bytes 0 (view s).recent = charge 0 (cached s) := by
    rw [bytes_eq_charge]; exact charge_perm h.lru.order_perm
  cases op with
  | get r => exact get_spec h r hop
  | find r u =>
    cases u with
    | false =>
      refine ⟨s, ?_, h, rfl⟩
      show find s r false = _
      rw [find_false h]
      simp only [Experts.step, hmem]; rfl
    | true =>
      by_cases hm : r.id ∈ (cached s).ids
      · obtain ⟨s', h1, h2, _, h4⟩ := find_hit h r hm
        refine ⟨s', ?_, h2, ?_⟩
        · show find s r true = _
          rw [h1]; simp [Experts.step, Experts.look, hmem, hm]
        · rw [h4]; simp [Experts.step, Experts.look, hmem, hm]
      · obtain ⟨s', h1, h2, _, _, _, h4⟩ := find_miss h r hm
        refine ⟨s', ?_, h2, ?_⟩
        · show find s r true = _
          rw [h1]; simp [Experts.step, Experts.look, hmem, hm]
        · rw [h4]; simp [Experts.step, Experts.look, hmem, hm]
  | remove id =>
    obtain ⟨s', h1, h2, _, h4⟩ := remove_spec h id
    refine ⟨s', ?_, h2, h4⟩
    show remove s id = _
    rw [h1]; simp only [Experts.step, hmem]
  | evict r =>
    have hn : (algo R).nObj s = ((cached s).length : Nat) := (contract R cs).nObj h
    have hnil : (view s).recent = [] ↔ cached s = [] := by
      have := h.lru.order_perm.length_eq
      rw [← List.length_eq_zero_iff, ← List.length_eq_zero_iff]
      simp only [view, cached]; omega
    by_cases h0 : cached s = []
    · refine ⟨s, ?_, h, ?_⟩
      · simp only [Algo.step]
        rw [if_neg (by rw [hn, h0]; simp)]
        simp only [Experts.step]; rw [if_pos (hnil.2 h0)]
      · simp only [Experts.step]; rw [if_pos (hnil.2 h0)]
    · obtain ⟨s', v, h1, h2, _, _, h5⟩ := evict_spec h r h0
      have h1' : (algo R).evict s r = .ok s' := h1
      have hl : (cached s).length ≠ 0 := fun e => h0 (List.length_eq_zero_iff.1 e)
      refine ⟨s', ?_, h2, ?_⟩
      · simp only [Algo.step]
        rw [if_pos (by rw [hn]; omega), h1']
        simp only [Experts.step]; rw [if_neg (fun e => h0 (hnil.1 e))]; rfl
      · rw [h5]; simp only [Experts.step]; rw [if_neg (fun e => h0 (hnil.1 e))]
  | insert r =>
    have hf : (algo R).find s r false = .ok (decide (r.id ∈ (cached s).ids), s) := find_false h r
    simp only [Algo.step, hf, Res.bind_ok, Experts.step, hmem, hb]
    by_cases hm : r.id ∈ (cached s).ids
    · exact ⟨s, by simp [hm], h, by simp [hm]⟩
    · cases hme : (algo R).mustEvict s r with
      | true =>
        have hgt := (mustEvict_iff h r).1 hme
        have : ¬ (r.id ∉ (cached s).ids ∧ charge 0 (cached s) + r.size ≤ cs) := by omega
        simp only [if_neg this]
        exact ⟨s, by simp, h, rfl⟩
      | false =>
        have hm' : ¬ _ := fun hc => by rw [(mustEvict_iff h r).2 hc] at hme; cases hme
        obtain ⟨s', h1, h2, _, h4⟩ := insert_spec h r hm (by rw [occ_eq h]; omega) (ok_half hop.2 (by omega))
        have h1' : (algo R).insert s r = .ok s' := h1
        have : r.id ∉ (cached s).ids ∧ charge 0 (cached s) + r.size ≤ cs := ⟨hm, by omega⟩
        simp only [if_pos this]
        exact ⟨s', by simp [hm, h1'], h2, h4⟩

theorem run_spec {cs : Nat} : ∀ (ops : List Op) {s : State R}, Inv cs s → (∀ op ∈ ops, Calls {} (ok cs) op) →
    ∃ s', Reaches (algo R) s ops (Experts.run (weigh R) cs (view s) ops).1 s' ∧ Inv cs s' ∧ view s' = (Experts.run (weigh R) cs (view s) ops).2 := by
  intro ops
  induction ops with
  | nil => intro s h _; exact ⟨s, rfl, h, rfl⟩
  | cons op ops ih =>
    intro s h ho
    obtain ⟨s1, h1, h2, h3⟩ := step_spec h op (ho op (by simp))
    obtain ⟨s', k1, k2, k3⟩ := ih h2 (fun o hm => ho o (by simp [hm]))
    rw [h3] at k1 k3
    refine ⟨s', ?_, k2, k3⟩
    simp only [Reaches] at k1 ⊢
    simp [Algo.run, h1, k1, Experts.run]

/-! ### When one expert always prevails -/

section
variable {cs : Nat} {τ : Type} {D : Discipline τ} {π : Experts.St R.W → τ}

/-- `π` makes the experts a textbook cache -/
structure Projects (R : Arith) (cs : Nat) (D : Discipline τ) (π : Experts.St R.W → τ) : Prop where
  contents : ∀ s : State R, Inv cs s → (D.contents (π (view s))).Perm (cached s)
  evict : ∀ s : State R, Inv cs s → cached s ≠ [] → π (Experts.evict (weigh R) (cs / 2) (view s)) = D.evict (π (view s))
  hit : ∀ t r, π (Experts.hit t r) = D.onHit (π t) r
  insert : ∀ t r, π (Experts.insert t r) = D.insert (π t) r
  remove : ∀ t id, π { t with recent := t.recent.filter (fun x => x.1 ≠ id), frequent := t.frequent.filter (fun x => x.id ≠ id) } = D.remove (π t) id
  removeMiss : ∀ x id, id ∉ (D.contents x).ids → D.remove x id = x
  only : ∀ t t', t.recent = t'.recent → t.frequent = t'.frequent → π t = π t'

theorem regret_only (K : Experts.Weighing R.W) (t : Experts.St R.W) (id : ObjId) :
    (Experts.regret K t id).recent = t.recent ∧ (Experts.regret K t id).frequent = t.frequent := by
  unfold Experts.regret
  split
  · exact ⟨rfl, rfl⟩
  · split <;> exact ⟨rfl, rfl⟩

theorem evict_adm {W : Type} (K : Experts.Weighing W) (half : Nat) (t : Experts.St W) : (Experts.evict K half t).adm = t.adm := by
  unfold Experts.evict
  split
  · split
    · rfl
    · split <;> rfl
  · rfl

theorem room_adm {W : Type} (K : Experts.Weighing W) (C need : Nat) : ∀ n (t : Experts.St W), (Experts.room K C need n t).adm = t.adm := by
  intro n
  induction n with
  | zero => intro t; rfl
  | succ n ih =>
    intro t
    simp only [Experts.room]
    split
    · rfl
    · rw [ih, evict_adm]

theorem Projects.mem (P : Projects R cs D π) {s : State R} (h : Inv cs s) (id : ObjId) : id ∈ (D.contents (π (view s))).ids ↔ id ∈ (cached s).ids :=
  ((P.contents s h).map Prod.fst).mem_iff

theorem Projects.bytes (P : Projects R cs D π) {s : State R} (h : Inv cs s) : bytes 0 (D.contents (π (view s))) = charge 0 (cached s) := by
  rw [bytes_eq_charge]; exact charge_perm (P.contents s h)

theorem Projects.room (P : Projects R cs D π) (r : Req) (hr : r.size ≤ cs) : ∀ m (s : State R), Inv cs s → (cached s).length ≤ m →
    π (Experts.room (weigh R) cs r.size m (view s)) = makeRoom D cs 0 r.size m (π (view s)) := by
  intro m
  induction m with
  | zero => intro s h hm; rfl
  | succ m ih =>
    intro s h hm
    have hb : Spec.bytes 0 (view s).recent = charge 0 (cached s) := by
      rw [bytes_eq_charge]; exact charge_perm h.lru.order_perm
    simp only [Experts.room, makeRoom, hb, P.bytes h]
    by_cases hle : charge 0 (cached s) + r.size ≤ cs
    · simp only [if_pos hle]
    · simp only [if_neg hle]
      have hne : cached s ≠ [] := by
        intro e; rw [e] at hle; simp only [charge] at hle; omega
      obtain ⟨s1, v, h1, h2, h3, h4, h5⟩ := evict_spec h r hne
      have hl := h3.length_eq
      simp only [List.length_cons] at hl
      rw [← h5, ih s1 h2 (by omega), h5, P.evict s h hne]

theorem Projects.step (P : Projects R cs D π) {s s' : State R} (h : Inv cs s) (op : Op) (hop : Calls {} (ok cs) op)
    (hv : view s' = (Experts.step (weigh R) cs (view s) op).2) :
    tstep D cs 0 ⟨π (view s), s.out.adm⟩ op = ((Experts.step (weigh R) cs (view s) op).1, ⟨π (view s'), s'.out.adm⟩) := by
  have hmem : ∀ id, id ∈ (view s).recent.ids ↔ id ∈ (cached s).ids := mem_order h.lru
  have hhold : ∀ id, holds D ⟨π (view s), s.out.adm⟩ id = decide (id ∈ (cached s).ids) := by
    intro id; simp only [holds, P.mem h]
  have hb : Spec.bytes 0 (view s).recent = charge 0 (cached s) := by
    rw [bytes_eq_charge]; exact charge_perm h.lru.order_perm
  have hadm : s'.out.adm = (Experts.step (weigh R) cs (view s) op).2.adm := by rw [← hv]; rfl
  rw [hadm, hv]
  clear hadm hv
  cases op with
  | get r =>
    simp only [tstep, tget, hhold, Experts.step, Experts.get, hmem]
    by_cases hm : r.id ∈ (cached s).ids
    · simp only [hm, decide_true, if_true]
      refine Prod.ext rfl ?_
      show TState.mk _ _ = _
      congr 1
      rw [P.hit]; congr 1
      exact P.only _ _ rfl rfl
    · simp only [hm, decide_false, if_false, Bool.false_eq_true]
      have hreg := regret_only (weigh R) { view s with now := (view s).now + 1 } r.id
      by_cases ha : (s.out.adm.admit r).1 = true ∧ r.size ≤ cs
      · rw [if_pos (show (s.out.adm.admit r).1 = true ∧ r.size + 0 ≤ cs from ha), if_pos (show ((view s).adm.admit r).1 = true ∧ r.size ≤ cs from ha)]
        refine Prod.ext rfl ?_
        -- the state in which room is made is that of a cache
        obtain ⟨s1, h1, h2, h3, h4, h5, h6⟩ := find_miss (frame h (s.out.nReq + 1) s.out.adm) r hm
        have hv2 : view { s1 with out := { s1.out with adm := (s.out.adm.admit r).2 } } =
            { Experts.regret (weigh R) { view s with now := (view s).now + 1 } r.id with adm := ((view s).adm.admit r).2 } := by
          have hv1 : view s1 = Experts.regret (weigh R) { view s with now := (view s).now + 1 } r.id := h6
          rw [← hv1]; rfl
        have hi2 := frame h2 s1.out.nReq (s.out.adm.admit r).2
        have hc2 : cached { s1 with out := { s1.out with adm := (s.out.adm.admit r).2 } } = cached s := by simp only [cached, h3]
        have hroom := P.room r ha.2 (view s).recent.length _ hi2 (by rw [hc2]; exact Nat.le_of_eq h.lru.order_perm.length_eq.symm)
        have hlen : (D.contents (π (view s))).length = (view s).recent.length := by
          rw [(P.contents s h).length_eq]; exact h.lru.order_perm.length_eq.symm
        obtain ⟨s3, k1, k2, k3, k4, k5⟩ := room_spec r ha.2 (cached s).length (view s).recent.length _ hi2 (by rw [hc2]; exact Nat.le_refl _)
          (by rw [hc2]; exact Nat.le_of_eq h.lru.order_perm.length_eq.symm)
        have hadm3 : (Experts.room (weigh R) cs r.size (view s).recent.length (view { s1 with out := { s1.out with adm := (s.out.adm.admit r).2 } })).adm =
            (s.out.adm.admit r).2 := by
          rw [hv2]; exact room_adm _ _ _ _ _
        rw [hv2] at hroom hadm3
        show TState.mk _ _ = TState.mk _ _
        congr 1
        · rw [P.insert, hroom, hlen, show r.size + 0 = r.size from rfl]
          congr 2
          exact P.only _ _ hreg.1.symm hreg.2.symm
        · exact hadm3.symm
      · rw [if_neg (show ¬ ((s.out.adm.admit r).1 = true ∧ r.size + 0 ≤ cs) from ha), if_neg (show ¬ (((view s).adm.admit r).1 = true ∧ r.size ≤ cs) from ha)]
        refine Prod.ext rfl ?_
        show TState.mk _ _ = TState.mk _ _
        congr 1
        exact P.only _ _ hreg.1.symm hreg.2.symm
  | find r u =>
    simp only [tstep, hhold, Experts.step, Experts.look, hmem]
    cases u with
    | false => simp [view]
    | true =>
      by_cases hm : r.id ∈ (cached s).ids
      · simp only [hm, decide_true, if_true, and_self, P.hit]; rfl
      · have hreg := regret_only (weigh R) (view s) r.id
        simp only [hm, decide_false, if_false, if_true, Bool.false_eq_true, and_false]
        refine Prod.ext rfl ?_
        show TState.mk _ _ = TState.mk _ _
        congr 1
        · exact (P.only _ _ hreg.1 hreg.2).symm
        · unfold Experts.regret; split
          · rfl
          · split <;> rfl
  | remove id =>
    simp only [tstep, hhold, Experts.step, hmem, P.remove]
    by_cases hm : id ∈ (cached s).ids
    · simp only [hm, decide_true, if_true]; rfl
    · simp only [hm, decide_false, Bool.false_eq_true, if_false]
      rw [P.removeMiss _ _ (by rw [P.mem h]; exact hm)]; rfl
  | evict r =>
    have e1 : D.contents (π (view s)) = [] ↔ cached s = [] := by
      have := (P.contents s h).length_eq
      rw [← List.length_eq_zero_iff, ← List.length_eq_zero_iff]; omega
    have e2 : (view s).recent = [] ↔ cached s = [] := by
      have := h.lru.order_perm.length_eq
      rw [← List.length_eq_zero_iff, ← List.length_eq_zero_iff]; simp only [view, cached]; omega
    simp only [tstep, Experts.step]
    by_cases h0 : cached s = []
    · rw [if_pos (e1.2 h0), if_pos (e2.2 h0)]; rfl
    · rw [if_neg (fun e => h0 (e1.1 e)), if_neg (fun e => h0 (e2.1 e))]
      simp only [P.evict s h h0, evict_adm]; rfl
  | insert r =>
    simp only [tstep, hhold, Experts.step, hmem, hb, P.bytes h, Nat.add_zero]
    by_cases hm : r.id ∈ (cached s).ids
    · simp only [hm, decide_true, not_true_eq_false, false_and, if_false, Bool.true_eq_false]; rfl
    · simp only [hm, decide_false, not_false_eq_true, true_and]
      split
      · simp only [P.insert]; rfl
      · rfl

theorem Projects.follows (P : Projects R cs D π) : ∀ {s0 : State R}, Inv cs s0 →
    Follows (algo R) s0 (Calls {} (ok cs)) D cs 0 ⟨π (view s0), s0.out.adm⟩ (fun s => ⟨π (view s), s.out.adm⟩) := by
  intro s0 h0 ops
  induction ops generalizing s0 with
  | nil => intro _; exact ⟨[], s0, rfl, rfl⟩
  | cons op ops ih =>
    intro ho
    obtain ⟨s1, h1, h2, h3⟩ := step_spec h0 op (ho op (by simp))
    have h4 := P.step h0 op (ho op (by simp)) h3
    obtain ⟨out, s, h5, h6⟩ := ih h2 (fun o h => ho o (by simp [h]))
    refine ⟨(Experts.step (weigh R) cs (view s0) op).1 :: out, s, ?_, ?_⟩
    · simp only [Reaches] at h5 ⊢
      simp [Algo.run, h1, h5]
    · simp only [trun, h4, h6]

theorem heads {s : State R} (h : Inv cs s) (hne : cached s ≠ []) :
    ∃ a b, (view s).recent.getLast? = some a ∧ (view s).frequent.head? = some b := by
  have h1 := h.lru.order_perm.length_eq
  have h2 := ((LFU.sim cs 0).contents h.lfu).length_eq
  have h3 := h.same.length_eq
  have hl : (cached s).length ≠ 0 := fun e => hne (List.length_eq_zero_iff.1 e)
  simp only [Spec.lfu, List.length_map] at h2
  have n1 : (view s).recent ≠ [] := by
    intro e; simp only [view] at e; rw [e] at h1; simp only [List.length_nil] at h1; exact hl h1.symm
  have n2 : (view s).frequent ≠ [] := by
    intro e; simp only [view] at e; rw [e] at h2; simp only [List.length_nil] at h2
    apply hl; show s.lru.base.cached.length = 0; omega
  cases hf : (view s).frequent with
  | nil => exact absurd hf n2
  | cons b t => exact ⟨_, b, List.getLast?_eq_some_getLast n1, rfl⟩

/-- the LRU expert always prevails -/
theorem projects_lru (hw : ∀ w x, R.lruWins w x = true) : Projects R cs lru (fun t => t.recent) where
  contents := fun s h => h.lru.order_perm
  evict := fun s h hne => by
    obtain ⟨a, b, ha, hb⟩ := heads h hne
    simp only [Experts.evict, ha, hb, weigh, hw, if_true]
    split <;> rfl
  hit := fun _ _ => rfl
  insert := fun _ _ => rfl
  remove := fun _ _ => rfl
  removeMiss := fun x id hn => filter_ids_eq hn
  only := fun _ _ h _ => h

/-- the LFU expert always prevails -/
theorem projects_lfu (hw : ∀ w x, R.lruWins w x = false) : Projects R cs lfu (fun t => t.frequent) where
  contents := fun s h => ((LFU.sim cs 0).contents h.lfu).trans h.same.symm
  evict := fun s h hne => by
    obtain ⟨a, b, ha, hb⟩ := heads h hne
    simp only [Experts.evict, ha, hb, weigh, hw, Bool.false_eq_true, if_false]
    split <;> rfl
  hit := fun _ _ => rfl
  insert := fun _ _ => rfl
  remove := fun _ _ => rfl
  removeMiss := fun x id hn => by
    show x.filter (fun y => y.id ≠ id) = x
    apply List.filter_eq_self.2
    intro y hy
    simp only [ne_eq, decide_not, Bool.not_eq_eq_eq_not, Bool.not_true, decide_eq_false_iff_not]
    rintro rfl
    exact hn (List.mem_map.2 ⟨y.entry, List.mem_map.2 ⟨y, hy, rfl⟩, rfl⟩)
  only := fun _ _ _ h => h

end
end Verif.LeCaRv0
