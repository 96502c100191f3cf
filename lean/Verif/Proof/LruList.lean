import Verif.Proof.Ghost
import Verif.Proof.LeCaRv0
/-!
# An LRU cache without admission policy and metadata, seen as the list of its objects, most recent first
-/

namespace Verif
open Spec

/-- The cache `x` of `cs` bytes holds the objects of `l` in this order. -/
structure LL (cs : Nat) (x : QState Unit) (l : Contents) : Prop where
  inv : PInv cs x
  order : x.order = l

theorem nil_or_last {α : Type} (l : List α) : l = [] ∨ ∃ c y, l = c ++ [y] := by
  rcases List.eq_nil_or_concat l with h | ⟨c, y, h⟩
  · exact Or.inl h
  · exact Or.inr ⟨c, y, by rw [h, List.concat_eq_append]⟩

theorem exists_last {l : Contents} (h : 0 < charge 0 l) : ∃ c y, l = c ++ [y] := by
  rcases nil_or_last l with rfl | h'
  · simp [charge] at h
  · exact h'

theorem ids_append (a b : Contents) : (a ++ b).ids = a.ids ++ b.ids := by simp [Contents.ids]

theorem charge_app (a b : Contents) : charge 0 (a ++ b) = charge 0 a + charge 0 b := by
  induction a with
  | nil => simp [charge]
  | cons x a ih => simp only [List.cons_append, charge, ih]; omega

namespace LL
variable {cs : Nat} {x : QState Unit} {l : Contents}

theorem init (cs : Nat) : LL cs (LRU.init cs 0 .none) [] := ⟨PInv.init cs, rfl⟩

theorem perm (h : LL cs x l) : l.Perm x.base.cached := by rw [← h.order]; exact h.inv.q.order_perm

theorem mem (h : LL cs x l) (id : ObjId) : id ∈ x.base.cached.ids ↔ id ∈ l.ids := (h.perm.map Prod.fst).symm.mem_iff

theorem nodup (h : LL cs x l) : l.ids.Nodup := (h.perm.map Prod.fst).nodup_iff.2 h.inv.nodup

theorem occ (h : LL cs x l) : x.base.occ = (charge 0 l : Nat) := by rw [h.inv.occ, charge_perm h.perm]

theorem nObj (h : LL cs x l) : x.base.nObj = (l.length : Nat) := by rw [h.inv.nObj, h.perm.length_eq]

theorem len (h : LL cs x l) : x.base.tbl.length = l.length := by rw [h.perm.length_eq]; simp [Base.cached]

theorem le (h : LL cs x l) : charge 0 l ≤ cs := by rw [charge_perm h.perm]; exact h.inv.charge_le

theorem peek (h : LL cs x l) (r : Req) : LRU.algo.find x r false = .ok (decide (r.id ∈ l.ids), x) := by
  rw [h.inv.lruFind_false r]; simp only [h.mem]

theorem get (h : LL cs x l) (r : Req) :
    ∃ b x', LRU.algo.get x r = .ok (b, x') ∧ LL cs x' (Experts.remember cs l (r.id, r.size)) := by
  obtain ⟨b, x', h1, h2, h3⟩ := Sim.step (LRU.spec cs 0) (LRU.sim cs 0) (.get r) (sizeOk_zero r) h.inv.q
  have h1' : LRU.algo.get x r = .ok (b, x') := h1
  refine ⟨b, x', h1', ⟨h2, LRU.adm_get h.inv.adm h1'⟩, ?_⟩
  have e : tget lru cs 0 ⟨x.order, .none⟩ r = (b, ⟨x'.order, x'.base.adm⟩) := by
    have := h3
    simp only [tstep, tview, h.inv.adm] at this
    exact this
  have e' : (tget lru cs 0 ⟨l, .none⟩ ⟨r.id, r.size, 0⟩).2.pol = (tget lru cs 0 ⟨l, .none⟩ r).2.pol := by
    simp only [tget, holds, Spec.lru, Adm.admit]
  rw [Experts.remember, e', ← h.order, e]

theorem find (h : LL cs x l) (r : Req) (hin : r.id ∈ l.ids) :
    ∃ x', LRU.algo.find x r true = .ok (true, x') ∧ LL cs x' (toFront l r.id) := by
  have hin' := (h.mem r.id).2 hin
  obtain ⟨o, ho⟩ := Option.isSome_iff_exists.1 (show (x.base.lookup r.id).isSome = true by rw [lookup_isSome_iff]; simpa using hin')
  obtain ⟨x', h1, h2, h3⟩ := (LRU.spec cs 0).findHit r o h.inv.q ho
  obtain ⟨h4, _⟩ := (LRU.sim cs 0).findHit r o h.inv.q ho h1
  exact ⟨x', h1, ⟨h2, LRU.find_adm h.inv.adm h1⟩, by rw [h4, h.order]; rfl⟩

theorem insert (h : LL cs x l) (r : Req) (hn : r.id ∉ l.ids) (hroom : charge 0 l + r.size ≤ cs) :
    ∃ x', LRU.algo.insert x r = .ok x' ∧ LL cs x' ((r.id, r.size % u32) :: l) := by
  have ho := lookup_none_iff'.2 (fun hm => hn ((h.mem r.id).1 hm))
  have hr : x.base.occ + r.size + (0 : Nat) ≤ cs := by rw [h.occ]; omega
  obtain ⟨x', h1, h2, _⟩ := (LRU.spec cs 0).insert r h.inv.q ho hr (sizeOk_zero r)
  obtain ⟨h4, h5⟩ := (LRU.sim cs 0).insert r h.inv.q ho hr (sizeOk_zero r) h1
  exact ⟨x', h1, ⟨h2, h5.trans h.inv.adm⟩, by rw [h4, h.order]; rfl⟩

theorem remove (h : LL cs x l) (id : ObjId) :
    ∃ x', LRU.algo.remove x id = .ok (decide (id ∈ l.ids), x') ∧ LL cs x' (l.filter (fun y => y.1 ≠ id)) := by
  obtain ⟨x', h1, h2, h3⟩ := h.inv.lruRemove id
  simp only [h.mem] at h1
  refine ⟨x', h1, h2, ?_⟩
  by_cases hin : id ∈ l.ids
  · have hin' := (h.mem id).2 hin
    obtain ⟨o, ho⟩ := Option.isSome_iff_exists.1 (show (x.base.lookup id).isSome = true by rw [lookup_isSome_iff]; simpa using hin')
    rw [decide_eq_true hin] at h1
    obtain ⟨h4, _⟩ := (LRU.sim cs 0).remove id o h.inv.q ho h1
    rw [h4, h.order]; rfl
  · have ho := lookup_none_iff'.2 (fun hm => hin ((h.mem id).1 hm))
    have h1' : QState.remove x id = .ok (decide (id ∈ l.ids), x') := h1
    simp only [QState.remove, ho] at h1'
    injection h1' with h1'
    have e : x' = x := by injection h1' with _ e; exact e.symm
    rw [e, h.order]
    symm
    rw [List.filter_eq_self]
    intro y hy
    simp only [ne_eq, decide_not, Bool.not_eq_eq_eq_not, Bool.not_true, decide_eq_false_iff_not]
    rintro rfl
    exact hin (List.mem_map_of_mem hy)

/-- the oldest object -/
theorem last {c : Contents} {y : ObjId × Nat} (h : LL cs x (c ++ [y])) (r : Req) :
    ∃ x' o, LRU.algo.evict x r = .ok x' ∧ LL cs x' c ∧ LRU.toEvict x = some y.1 ∧ x.base.lookup y.1 = some o ∧ (o.id, o.size) = y ∧ y.2 < u32 := by
  have hne : x.base.tbl ≠ [] := by
    intro e
    have := h.len
    simp [e] at this
  obtain ⟨x', o, h1, h2, h3, h4, h5, h6, h7⟩ := h.inv.q.evictTail_spec hne
  have hlo : x.order = orderOf x.base x'.q ++ [(o.id, o.size)] := LeCaRv0.order_last h3 h4
  rw [h.order] at hlo
  obtain ⟨e1, e2⟩ := List.append_inj' hlo rfl
  have e2 : y = (o.id, o.size) := by simpa using e2
  have hv : x'.order = x.order.dropLast := h.inv.q.order_evict h3 h4 h6
  have hsm := h.inv.q.base.inv.small o (lookup_some_mem h3).1
  subst e2
  refine ⟨x', o, h1, ⟨⟨h2, QState.evictTail_adm h.inv.adm h1⟩, by rw [hv, h.order, List.dropLast_concat]⟩, by simp [LRU.toEvict, h4], h3, rfl, ?_⟩
  show o.size < u32
  omega

theorem none (h : LL cs x []) : LRU.toEvict x = Option.none := by
  have h1 := h.len
  have h2 := h.inv.q.q.length_eq
  simp only [LRU.toEvict, List.getLast?_eq_none_iff]
  apply List.length_eq_zero_iff.1
  simp only [List.length_map, List.length_nil] at h1 h2
  omega

end LL

/-! ### what an LRU cache remembers -/

theorem remember_new {cs : Nat} {l : Contents} {y : ObjId × Nat} (hn : y.1 ∉ l.ids) (hr : charge 0 l + y.2 ≤ cs) :
    Experts.remember cs l y = (y.1, y.2 % u32) :: l := by
  have hh : holds lru ⟨l, .none⟩ y.1 = false := by simp only [holds, lru]; exact decide_eq_false hn
  unfold Experts.remember tget
  simp only [hh, Bool.false_eq_true, if_false, Adm.admit, true_and, Nat.add_zero]
  rw [if_pos (by omega)]
  cases l with
  | nil => rfl
  | cons z l =>
    simp only [Spec.lru, List.length_cons, makeRoom, bytes_eq_charge]
    rw [if_pos hr]

theorem makeRoom_prefix (C need : Nat) : ∀ n (l : Contents), makeRoom lru C 0 need n l <+: l := by
  intro n
  induction n with
  | zero => intro l; exact List.prefix_refl _
  | succ n ih =>
    intro l
    unfold makeRoom
    split
    · exact List.prefix_refl _
    · exact (ih _).trans (List.dropLast_prefix l)

theorem mem_toFront {l : Contents} {id : ObjId} {x : ObjId × Nat} : x ∈ toFront l id ↔ x ∈ l := by
  simp only [toFront, List.mem_append, List.mem_filter, decide_eq_true_eq]
  constructor
  · rintro (⟨h, _⟩ | ⟨h, _⟩) <;> exact h
  · intro h
    by_cases e : x.1 = id
    · exact Or.inl ⟨h, e⟩
    · exact Or.inr ⟨h, e⟩

theorem remember_sub {cs : Nat} {l : Contents} {y x : ObjId × Nat} (h : x ∈ Experts.remember cs l y) : x = (y.1, y.2 % u32) ∨ x ∈ l := by
  unfold Experts.remember tget at h
  split at h
  · exact Or.inr (mem_toFront.1 h)
  · simp only at h
    split at h
    · rcases List.mem_cons.1 h with rfl | h
      · exact Or.inl rfl
      · exact Or.inr ((makeRoom_prefix _ _ _ _).subset h)
    · exact Or.inr h

end Verif
