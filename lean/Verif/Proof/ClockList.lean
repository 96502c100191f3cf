import Verif.Proof.MainCache
import Verif.Proof.LruList
import Verif.Spec.LazyARC
/-!
# A CLOCK cache without admission policy and metadata, seen as the list of its objects, oldest first
-/

namespace Verif
open Spec Spec.LazyARC

/-- The cache `x` of `cs` bytes with one-bit counters holds the objects of `l` in this order. -/
structure CC (cs : Nat) (x : Clock.State) (l : List Item) : Prop where
  inv : Clock.Inv cs 0 1 x
  adm : x.base.adm = .none
  view : Clock.view x = l

namespace CC
variable {cs : Nat} {x : Clock.State} {l : List Item}

theorem init (cs : Nat) : CC cs (Clock.init cs 0 1 .none) [] := ⟨Clock.inv_init cs 0 1 .none, rfl, rfl⟩

theorem perm (h : CC cs x l) : (ent l).Perm x.base.cached := by rw [← h.view]; exact (Clock.sim cs 0 1).contents h.inv

theorem mem (h : CC cs x l) (id : ObjId) : id ∈ x.base.cached.ids ↔ id ∈ (ent l).ids := (h.perm.map Prod.fst).symm.mem_iff

theorem nodup (h : CC cs x l) : (ent l).ids.Nodup := (h.perm.map Prod.fst).nodup_iff.2 ((MainCache.clock cs 1).nodup ⟨h.inv, h.adm⟩)

theorem occ (h : CC cs x l) : x.base.occ = (charge 0 (ent l) : Nat) := by
  rw [charge_perm h.perm]; exact (MainCache.clock cs 1).occ ⟨h.inv, h.adm⟩

theorem nObj (h : CC cs x l) : x.base.nObj = (l.length : Nat) := by
  have := (MainCache.clock cs 1).nObj ⟨h.inv, h.adm⟩
  rw [← h.perm.length_eq, ent, List.length_map] at this
  exact this

theorem len (h : CC cs x l) : x.base.tbl.length = l.length := by
  have := h.perm.length_eq
  simp only [ent, List.length_map, Base.cached] at this
  exact this.symm

theorem le (h : CC cs x l) : charge 0 (ent l) ≤ cs := by
  rw [charge_perm h.perm]; exact (MainCache.clock cs 1).cap ⟨h.inv, h.adm⟩

theorem peek (h : CC cs x l) (r : Req) : Clock.algo.find x r false = .ok (decide (r.id ∈ (ent l).ids), x) := by
  rw [(MainCache.clock cs 1).findF r ⟨h.inv, h.adm⟩]; simp only [h.mem]

theorem lookup (h : CC cs x l) {id : ObjId} (hin : id ∈ (ent l).ids) : ∃ o, x.base.lookup id = some o := by
  cases hl : x.base.lookup id with
  | none => exact absurd ((h.mem id).2 hin) (lookup_none_iff'.1 hl)
  | some o => exact ⟨o, rfl⟩

theorem find (h : CC cs x l) (r : Req) (hin : r.id ∈ (ent l).ids) :
    ∃ x', Clock.algo.find x r true = .ok (true, x') ∧ CC cs x' ((clock 1).onHit l r) := by
  obtain ⟨o, ho⟩ := h.lookup hin
  obtain ⟨x', h1, h2, _⟩ := (Clock.spec cs 0 1).findHit r o h.inv ho
  obtain ⟨h4, h5⟩ := (Clock.sim cs 0 1).findHit r o h.inv ho h1
  exact ⟨x', h1, h2, h5.trans h.adm, by rw [h4, h.view]⟩

theorem insert (h : CC cs x l) (r : Req) (hn : r.id ∉ (ent l).ids) (hroom : charge 0 (ent l) + r.size ≤ cs) :
    ∃ x', Clock.algo.insert x r = .ok x' ∧ CC cs x' (l ++ [⟨r.id, r.size % u32, 0⟩]) := by
  have ho := lookup_none_iff'.2 (fun hm => hn ((h.mem r.id).1 hm))
  have hr : x.base.occ + r.size + (0 : Nat) ≤ cs := by rw [h.occ]; omega
  obtain ⟨x', h1, h2, _⟩ := (Clock.spec cs 0 1).insert r h.inv ho hr (sizeOk_zero r)
  obtain ⟨h4, h5⟩ := (Clock.sim cs 0 1).insert r h.inv ho hr (sizeOk_zero r) h1
  exact ⟨x', h1, h2, h5.trans h.adm, by rw [h4, h.view]; rfl⟩

/-- a request for an object that is not there and for which there is room -/
theorem get (h : CC cs x l) (r : Req) (hn : r.id ∉ (ent l).ids) (hroom : charge 0 (ent l) + r.size ≤ cs) :
    ∃ x', Clock.algo.get x r = .ok (false, x') ∧ CC cs x' (l ++ [⟨r.id, r.size % u32, 0⟩]) := by
  obtain ⟨b, x', h1, h2, h3⟩ := Sim.step (Clock.spec cs 0 1) (Clock.sim cs 0 1) (.get r) (sizeOk_zero r) h.inv
  have h1' : Clock.algo.get x r = .ok (b, x') := h1
  have e : tget (clock 1) cs 0 ⟨l, .none⟩ r = (b, ⟨Clock.view x', x'.base.adm⟩) := by
    have := h3
    simp only [tstep, tview, h.adm, h.view] at this
    exact this
  have hh : holds (clock 1) ⟨l, .none⟩ r.id = false := by
    show decide (r.id ∈ (ent l).ids) = false
    exact decide_eq_false hn
  have e2 : tget (clock 1) cs 0 ⟨l, .none⟩ r = (false, ⟨l ++ [⟨r.id, r.size % u32, 0⟩], .none⟩) := by
    unfold tget
    simp only [hh, Bool.false_eq_true, if_false, Adm.admit, true_and, Nat.add_zero]
    rw [if_pos (by omega)]
    have : makeRoom (clock 1) cs 0 r.size ((clock 1).contents l).length l = l := by
      cases hl : ((clock 1).contents l).length with
      | zero => rfl
      | succ n =>
        rw [makeRoom, if_pos]
        rw [bytes_eq_charge]
        exact hroom
    rw [this]
    rfl
  rw [e2] at e
  injection e with e3 e4
  injection e4 with e4 e5
  subst e3
  exact ⟨x', h1', h2, e5.symm, e4.symm⟩

theorem ids_filter (l : List Item) (id : ObjId) : ent (l.filter (fun y => y.id ≠ id)) = (ent l).filter (fun y => y.1 ≠ id) := by
  simp only [ent, List.filter_map]; rfl

theorem remove (h : CC cs x l) (id : ObjId) :
    ∃ x', Clock.algo.remove x id = .ok (decide (id ∈ (ent l).ids), x') ∧ CC cs x' (l.filter (fun y => y.id ≠ id)) := by
  by_cases hin : id ∈ (ent l).ids
  · obtain ⟨o, ho⟩ := h.lookup hin
    obtain ⟨x', h1, h2, _⟩ := (Clock.spec cs 0 1).removeHit rfl id o h.inv ho
    obtain ⟨h4, h5⟩ := (Clock.sim cs 0 1).remove id o h.inv ho h1
    exact ⟨x', by rw [h1, decide_eq_true hin], h2, h5.trans h.adm, by rw [h4, h.view]; rfl⟩
  · have ho := lookup_none_iff'.2 (fun hm => hin ((h.mem id).1 hm))
    refine ⟨x, by rw [(Clock.spec cs 0 1).removeMiss rfl id h.inv ho, decide_eq_false hin], h.inv, h.adm, ?_⟩
    rw [h.view]
    symm
    rw [List.filter_eq_self]
    intro y hy
    simp only [ne_eq, decide_not, Bool.not_eq_eq_eq_not, Bool.not_true, decide_eq_false_iff_not]
    rintro rfl
    exact hin (List.mem_map_of_mem (List.mem_map_of_mem hy))

end CC

/-- what CLOCK throws out, and what it leaves -/
theorem clockVictim_perm : ∀ l : List Item, l ≠ [] → ∃ v, clockVictim l = some v ∧ (ent l).Perm (v.entry :: ent (clockEvict l))
  | [], h => absurd rfl h
  | x :: l, _ => by
    by_cases hc : x.cnt = 0
    · exact ⟨x, by rw [clockVictim, if_pos hc], by rw [clockEvict, if_pos hc]; exact List.Perm.refl _⟩
    · obtain ⟨v, h1, h2⟩ := clockVictim_perm (l ++ [{ x with cnt := x.cnt - 1 }]) (by simp)
      refine ⟨v, by rw [clockVictim, if_neg hc, h1], ?_⟩
      rw [clockEvict, if_neg hc]
      refine List.Perm.trans ?_ h2
      simp only [ent, List.map_cons, List.map_append, List.map_nil]
      exact (List.perm_append_singleton _ _).symm
termination_by l => (l.map Item.cnt).sum
decreasing_by simp; omega

theorem perm_cons_cancel {α : Type} {a b : α} {l : List α} (h : (a :: l).Perm (b :: l)) : a = b := by
  have h' : ([a] ++ l).Perm ([b] ++ l) := h
  have := (List.perm_append_right_iff l).1 h'
  simpa using this

theorem CC.evict {cs : Nat} {x : Clock.State} {l : List Item} (h : CC cs x l) (r : Req) (hne : l ≠ []) :
    ∃ v x' o, clockVictim l = some v ∧ Clock.algo.evict x r = .ok x' ∧ CC cs x' (clockEvict l) ∧ Clock.toEvict x = some v.id ∧
      x.base.lookup v.id = some o ∧ (o.id, o.size) = v.entry ∧ (ent l).Perm (v.entry :: ent (clockEvict l)) := by
  have hne' : x.base.tbl ≠ [] := by
    intro e
    have := h.len
    rw [e] at this
    exact hne (List.length_eq_zero_iff.1 this.symm)
  obtain ⟨v, k1, k2⟩ := clockVictim_perm l hne
  obtain ⟨x', w, h1, h2, h3, h4, h5, _⟩ := Clock.evict_spec h.inv hne'
  have hC : CC cs x' (clockEvict l) := ⟨h2, h5.trans h.adm, by rw [h4, h.view]⟩
  have ew : v.entry = w := perm_cons_cancel (k2.symm.trans (h.perm.trans (h3.trans (hC.perm.symm.cons w))))
  obtain ⟨id, n, x'', j1, j2, j3⟩ := Clock.toEvict_spec h.inv hne'
  rw [h1] at j2
  cases j2
  have ei : (id, n) = w := perm_cons_cancel (j3.symm.trans h3)
  have hv : v.entry ∈ x.base.cached := h.perm.subset (k2.symm.subset (by simp))
  obtain ⟨o, ho, he⟩ := List.mem_map.1 hv
  have he' : (o.id, o.size) = v.entry := he
  have hid : o.id = v.id := congrArg Prod.fst he'
  refine ⟨v, x', o, k1, h1, hC, ?_, ?_, he', k2⟩
  · rw [j1]
    rw [← ei] at ew
    exact congrArg some (congrArg Prod.fst ew).symm
  · rw [← hid]
    exact lookup_of_mem h.inv.q.base.inv.nodup ho

end Verif
