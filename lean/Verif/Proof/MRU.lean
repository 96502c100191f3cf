import Verif.Proof.Queue
import Verif.Algo.MRU
import Verif.Proof.LRU
/-!
# MRU on requests of which any two fit together

`MRU_evict` dereferences NULL when it is called with exactly one object cached.  That cannot happen as long as any two
requested objects fit together (requests for objects larger than the cache are harmless) and the client does not
call `evict` itself.
-/

namespace Verif.MRU
open Verif Spec

/-- no client evictions -/
abbrev noEv : Perms := { ev := false }

structure Inv (cs md : Nat) (s : State) : Prop where
  q : QInv cs md s
  half : ∀ x ∈ s.base.cached, 2 * (x.2 + md) ≤ cs

theorem find_false (s : State) (r : Req) : find s r false = .ok ((s.base.lookup r.id).isSome, s) := by
  unfold find
  rw [findBase_false]
  cases h : s.base.lookup r.id <;> simp

theorem find_hit {cs md : Nat} {s : State} {r : Req} {o : Obj Unit} (h : QInv cs md s)
    (ho : s.base.lookup r.id = some o) :
    find s r true = .ok (true, { base := s.base.modify r.id (touch r), q := r.id :: s.q.erase r.id }) := by
  simp [find, findBase_hit ho, qMoveToHead, h.mem_of_lookup ho]

theorem find_miss {s : State} {r : Req} (ho : s.base.lookup r.id = none) : find s r true = .ok (false, s) := by
  simp [find, findBase_miss ho]

/-- `MRU_evict` with at least two objects. -/
theorem evict_spec {cs md : Nat} {s : State} (h : QInv cs md s) (hlen : 2 ≤ s.base.tbl.length) :
    ∃ s' o, evict s = .ok s' ∧ QInv cs md s' ∧ s.base.lookup o.id = some o ∧ s.q = o.id :: s'.q ∧
      s.base.cached.Perm ((o.id, o.size) :: s'.base.cached) ∧
      s'.base.tbl = s.base.tbl.eraseP (fun x => x.id == o.id) ∧ s'.base.adm = s.base.adm := by
  have hl := h.q.length_eq
  simp only [List.length_map] at hl
  match hq : s.q with
  | [] => rw [hq] at hl; simp at hl; omega
  | [_] => rw [hq] at hl; simp at hl; omega
  | v :: w :: rest =>
    obtain ⟨o, ho⟩ := (h.mem_iff v).1 (by rw [hq]; simp)
    have hid := (lookup_some_mem ho).2
    obtain ⟨b', h1, h2, h3, h4, h5, h6, h7⟩ := h.base.remove ho
    refine ⟨{ base := b', q := w :: rest }, o, ?_, ⟨h2, ?_⟩, by rw [hid]; exact ho, by rw [hid],
      h5, by rw [hid]; exact h3, h6⟩
    · simp [evict, hq, Base.evictBase, h1]
    · have := h.erase_perm hid h4
      rw [hq] at this; simpa using this

theorem two_of_need {cs md : Nat} {s : State} (h : Inv cs md s) (hne : s.base.tbl ≠ []) {r : Req}
    (hw : EvWhen noEv (AnyTwoFit cs md) cs md s.base r) : 2 ≤ s.base.tbl.length := by
  rcases hw with hw | ⟨hok, hfit, hw⟩
  · simp at hw
  · rcases hok.2 with h2 | h2
    · match ht : s.base.tbl with
      | [] => exact absurd ht hne
      | [o] =>
        exfalso
        have hh := h.half (o.id, o.size) (by simp [Base.cached, ht])
        rw [h.q.base.inv.occ_eq, h.q.base.md] at hw
        simp only [Base.cached, ht, List.map_cons, List.map_nil, charge] at hw
        simp only at hh
        omega
      | _ :: _ :: _ => simp
    · omega

theorem spec (cs md : Nat) : SBSpec algo (fun s => s.base) (fun s b => { s with base := b }) (Inv cs md) cs md
    noEv (AnyTwoFit cs md) where
  base_set := fun _ _ => rfl
  occ := fun _ => rfl
  nObj := fun _ => rfl
  csz := fun _ => rfl
  mdz := fun _ => rfl
  bumpEq := fun _ => rfl
  canEq := fun _ _ => rfl
  fuel := fun _ => Nat.le_refl _
  inv := fun h => h.q.base
  frame := fun n a h => ⟨h.q.frame n a, h.half⟩
  findF := fun r _ => find_false _ r
  findHit := fun {s} r o h ho => by
    have e : (s.base.modify r.id (touch r)).cached = s.base.cached :=
      Base.cached_modify _ _ (touch r) (fun _ => rfl) (fun _ => rfl)
    refine ⟨_, find_hit h.q ho, ⟨h.q.touchFront r ho, ?_⟩, ?_⟩
    · simp only [e]; exact h.half
    · simp only [e]; exact List.Perm.refl _
  findMiss := fun r _ ho => find_miss ho
  evict := fun {s} r h hne hw => by
    obtain ⟨s', o, h1, h2, _, _, h5, _⟩ := evict_spec h.q (two_of_need h hne hw)
    exact ⟨s', _, h1, ⟨h2, fun x hx => h.half x (h5.symm.subset (by simp [hx]))⟩, h5⟩
  insert := fun {s} r h hn hroom hok => by
    obtain ⟨s', h1, h2, h3, h4⟩ := h.q.insert () r hn hroom hok.1
    refine ⟨s', h1, ⟨h2, ?_⟩, by rw [h3, cached_insertBase]⟩
    intro x hx
    rw [h3, cached_insertBase] at hx
    rcases List.mem_cons.1 hx with rfl | hx
    · have hle : r.size % u32 ≤ r.size := Nat.mod_le _ _
      have h0 : 0 ≤ s.base.occ := by rw [h.q.base.inv.occ_eq]; omega
      rcases hok.2 with h2 | h2
      · simp only; omega
      · omega
    · exact h.half x hx
  removeMiss := fun _ {_} id _ hn => QInv.remove_miss hn
  removeHit := fun _ {s} id o h ho => by
    obtain ⟨s', h1, h2, h3, _⟩ := h.q.remove_spec ho
    exact ⟨s', h1, ⟨h2, fun x hx => h.half x (h3.symm.subset (by simp [hx]))⟩, h3⟩

theorem order_evict {cs md : Nat} {s s' : State} {o : Obj Unit} (h : QInv cs md s)
    (hl : s.base.lookup o.id = some o) (hq : s.q = o.id :: s'.q)
    (ht : s'.base.tbl = s.base.tbl.eraseP (fun x => x.id == o.id)) : s'.order = s.order.tail := by
  have hnd := h.nodup
  rw [hq, List.nodup_cons] at hnd
  have e : orderOf s'.base s'.q = orderOf s.base s'.q := by
    apply orderOf_congr
    intro id hid
    exact szOf_erase ht (by rintro rfl; exact hnd.1 hid)
  unfold QState.order
  rw [e, hq, orderOf_cons hl]; rfl

theorem evict_two {s s' : State} (he : evict s = .ok s') : ∃ a b l, s.q = a :: b :: l := by
  unfold evict at he
  match hq : s.q with
  | [] => rw [hq] at he; cases he
  | [_] => rw [hq] at he; cases he
  | a :: b :: l => exact ⟨a, b, l, rfl⟩

theorem sim (cs md : Nat) : Sim algo (fun s => s.base) (fun s b => { s with base := b }) (Inv cs md) cs md
    mru QState.order noEv (AnyTwoFit cs md) where
  contents := fun h => h.q.order_perm
  frame := fun _ _ _ => rfl
  findHit := fun {s s'} r o h ho hf => by
    have hf' : find s r true = .ok (true, s') := hf
    rw [find_hit h.q ho] at hf'
    cases hf'
    exact ⟨h.q.order_toFront (h.q.mem_of_lookup ho) (fun i => szOf_modify _ _ (touch r) (fun _ => rfl) (fun _ => rfl)) rfl, rfl⟩
  evict := fun {s s'} r h hne he => by
    have he' : evict s = .ok s' := he
    obtain ⟨a, b, l, hab⟩ := evict_two he'
    have hl := h.q.q.length_eq
    rw [hab] at hl
    simp only [List.length_map, List.length_cons] at hl
    obtain ⟨s'', o, h1, _, h3, h4, _, h6, h7⟩ := evict_spec h.q (by omega)
    rw [h1] at he'; cases he'
    exact ⟨order_evict h.q h3 h4 h6, h7⟩
  insert := fun {s s'} r h hn hroom hok hi => by
    obtain ⟨s'', h1, _, h3, h4⟩ := h.q.insert () r hn hroom hok.1
    have hi' : QState.insert () s r = .ok s' := hi
    rw [h1] at hi'; cases hi'
    exact ⟨h.q.order_insert () hn h3 h4, by rw [h3]; rfl⟩
  remove := fun {s s'} id o h ho hr => by
    obtain ⟨s'', h1, _, _, h4, h5, h6⟩ := h.q.remove_spec ho
    have hr' : QState.remove s id = .ok (true, s') := hr
    rw [h1] at hr'; cases hr'
    exact ⟨h.q.order_remove h4 h5, h6⟩

theorem strong (cs md : Nat) : SBStrong algo (fun s => s.base) (Inv cs md) cs md QState.core noEv (AnyTwoFit cs md) :=
  (spec cs md).strong QState.core (fun _ _ _ => rfl)

theorem inv_init (cs md : Nat) (adm : Adm) : Inv cs md (init cs md adm) :=
  ⟨QInv.init cs md adm, by simp [init, QState.init, Base.init, Base.cached]⟩

theorem toEvict_spec {cs md : Nat} {s : State} (hi : QInv cs md s) (hlen : 2 ≤ s.base.tbl.length) :
    ∃ id n s', toEvict s = some id ∧ evict s = .ok s' ∧ s.base.cached.Perm ((id, n) :: s'.base.cached) := by
  obtain ⟨s', o, h1, _, _, h4, h5, _⟩ := evict_spec hi hlen
  exact ⟨o.id, o.size, s', by simp [toEvict, h4], h1, h5⟩

end Verif.MRU
