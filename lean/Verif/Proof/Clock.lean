import Verif.Proof.View
import Verif.Algo.Clock
/-!
# CLOCK
-/

namespace Verif.Clock
open Verif Spec

abbrev item := cntItem

/-- The objects from oldest to newest with their counters. -/
def view (s : State) : List Item := viewOf item s.base s.q.reverse

structure Inv (cs md mf : Nat) (s : State) : Prop where
  q : QInv cs md s.qs
  mf : s.maxFreq = mf

theorem total_eq {cs md mf : Nat} {s : State} (h : Inv cs md mf s) : ((view s).map Item.cnt).sum = totalFreq s := by
  unfold view totalFreq
  rw [viewOf_map]
  exact List.Perm.sum_nat <| viewOf_perm_tbl h.q.base.inv.nodup (s.q.reverse_perm.trans h.q.q)

theorem find_false (s : State) (r : Req) : find s r false = .ok ((s.base.lookup r.id).isSome, s) := by
  unfold find
  rw [findBase_false]
  cases h : s.base.lookup r.id <;> simp

/-- counter increment of `Clock_find` -/
def inc (mf : Nat) (o : Obj Nat) : Obj Nat := if o.mt < mf then { o with mt := o.mt + 1 } else o

theorem inc_id (mf : Nat) (o : Obj Nat) : (inc mf o).id = o.id := by unfold inc; split <;> rfl
theorem inc_size (mf : Nat) (o : Obj Nat) : (inc mf o).size = o.size := by unfold inc; split <;> rfl

theorem find_hit {s : State} {r : Req} {o : Obj Nat} (ho : s.base.lookup r.id = some o) :
    find s r true = .ok (true, { s with base := (s.base.modify r.id (touch r)).modify r.id (inc s.maxFreq) }) := by
  simp [find, findBase_hit ho]; rfl

theorem find_miss {s : State} {r : Req} (ho : s.base.lookup r.id = none) : find s r true = .ok (false, s) := by
  simp [find, findBase_miss ho]

theorem scan_spec (cs md mf : Nat) : ∀ n s, Inv cs md mf s → s.base.tbl ≠ [] → totalFreq s < n →
    ∃ id o s' rest, scan n s = .ok (id, s') ∧ Inv cs md mf s' ∧ s'.base.lookup id = some o ∧ o.mt = 0 ∧
      s'.q = rest ++ [id] ∧ s'.base.cached.Perm s.base.cached ∧ s'.base.adm = s.base.adm ∧
      clockEvict (view s) = viewOf item s'.base rest.reverse ∧ IsFirstLowest (view s) id := by
  intro n
  induction n with
  | zero => intro s _ _ h; omega
  | succ n ih =>
    intro s hi hne hlt
    have hq : s.q ≠ [] := by
      intro h0
      have := hi.q.q.length_eq
      simp only [State.qs, h0, List.length_nil, List.length_map] at this
      exact hne (List.length_eq_zero_iff.1 this.symm)
    obtain ⟨rest, id, hsplit⟩ : ∃ rest id, s.q = rest ++ [id] :=
      ⟨s.q.dropLast, s.q.getLast hq, (List.dropLast_append_getLast hq).symm⟩
    have hmem : id ∈ s.q := by rw [hsplit]; simp
    obtain ⟨o, ho⟩ := (hi.q.mem_iff id).1 hmem
    have ho' : s.base.lookup id = some o := ho
    obtain ⟨hom, hoid⟩ := lookup_some_mem ho'
    have htail : qTail s.q = .ok id := by simp [qTail, hsplit]
    have hview : view s = item o :: viewOf item s.base rest.reverse := by
      unfold view; rw [hsplit, List.reverse_append]
      exact viewOf_cons ho'
    by_cases hz : o.mt = 0
    · refine ⟨id, o, s, rest, ?_, hi, ho', hz, hsplit, List.Perm.refl _, rfl, ?_⟩
      · simp [scan, htail, ho', hz]
      · refine ⟨by rw [hview, clockEvict]; simp [item, cntItem, hz], ?_⟩
        rw [hview, ← hoid]; exact firstLowest_zero (x := item o) hz
    · have hnd := hi.q.nodup
      have hnd' : (rest ++ [id]).Nodup := by have := hnd; simp only [State.qs] at this; rw [hsplit] at this; exact this
      have hnr : id ∉ rest := by
        rw [List.nodup_append] at hnd'
        exact fun hx => hnd'.2.2 id hx id (by simp) rfl
      have her : s.q.erase id = rest := by rw [hsplit, List.erase_append_right _ hnr]; simp
      let dec : Obj Nat → Obj Nat := fun o => { o with mt := o.mt - 1 }
      let s1 : State := { s with base := s.base.modify id dec, q := id :: rest, nRew := s.nRew + 1, byteRew := s.byteRew + o.size }
      have hmv : qMoveToHead s.q id = .ok (id :: rest) := by simp [qMoveToHead, hmem, her]
      have hstep : scan (n + 1) s = scan n s1 := by
        have : 1 ≤ o.mt := by omega
        rw [scan, htail, Res.bind_ok]
        simp only [ho', this, if_true, hmv, Res.bind_ok]
        rfl
      have hi1 : Inv cs md mf s1 := by
        refine ⟨⟨hi.q.base.modify id dec (fun _ => rfl) (fun _ => rfl), ?_⟩, hi.mf⟩
        have h1 : s1.qs.base.tbl.map (·.id) = s.base.tbl.map (·.id) := Base.ids_modify _ _ dec (fun _ => rfl)
        rw [h1]
        refine List.Perm.trans ?_ hi.q.q
        simp only [s1, State.qs]
        rw [hsplit]
        exact (List.perm_append_singleton id rest).symm
      have hne1 : s1.base.tbl ≠ [] := by
        simp only [s1, Base.modify, ne_eq, List.map_eq_nil_iff]; exact hne
      have hv1 : view s1 = viewOf item s.base rest.reverse ++ [{ item o with cnt := o.mt - 1 }] := by
        unfold view
        simp only [s1, List.reverse_cons]
        rw [viewOf_append]
        congr 1
        · apply viewOf_congr
          intro x hx
          rw [lookup_modify_ne (f := dec) (fun _ => rfl)]
          rintro rfl; exact hnr (List.mem_reverse.1 hx)
        · rw [viewOf_cons (lookup_modify_self (f := dec) (fun _ => rfl) ho')]
          rfl
      have htot : totalFreq s1 < n := by
        rw [← total_eq hi1, hv1]
        rw [← total_eq hi, hview] at hlt
        simp only [List.map_append, List.map_cons, List.sum_append, List.sum_cons, List.map_nil, List.sum_nil, item, cntItem] at hlt ⊢
        omega
      obtain ⟨id', o', s', rest', k1, k2, k3, k4, k5, k6, k7, k8, k9⟩ := ih s1 hi1 hne1 htot
      refine ⟨id', o', s', rest', by rw [hstep, k1], k2, k3, k4, k5, ?_, k7, ?_⟩
      · refine k6.trans ?_
        rw [Base.cached_modify _ _ dec (fun _ => rfl) (fun _ => rfl)]
      · have hz' : (item o).cnt ≠ 0 := hz
        refine ⟨?_, ?_⟩
        · rw [← k8, hv1, hview, clockEvict]
          rw [if_neg hz']
          rfl
        · rw [hview]
          rw [hv1] at k9
          exact firstLowest_rotate hz' k9

theorem evict_spec {cs md mf : Nat} {s : State} (hi : Inv cs md mf s) (hne : s.base.tbl ≠ []) :
    ∃ s' v, evict s = .ok s' ∧ Inv cs md mf s' ∧ s.base.cached.Perm (v :: s'.base.cached) ∧
      view s' = clockEvict (view s) ∧ s'.base.adm = s.base.adm ∧ IsFirstLowest (view s) v.1 := by
  obtain ⟨id, o, s1, rest, k1, k2, k3, k4, k5, k6, k7, k8, k9⟩ := scan_spec cs md mf (totalFreq s + 1) s hi hne (by omega)
  have k3' : s1.qs.base.lookup id = some o := k3
  obtain ⟨b', h1, h2, h3, h4, h5, h6, h7⟩ := k2.q.base.remove k3'
  have hmem : id ∈ s1.q := by rw [k5]; simp
  have hid := (lookup_some_mem k3).2
  have hnd := k2.q.nodup
  have hnr : id ∉ rest := by
    have hnd' : (rest ++ [id]).Nodup := by have := hnd; simp only [State.qs] at this; rw [k5] at this; exact this
    rw [List.nodup_append] at hnd'
    exact fun hx => hnd'.2.2 id hx id (by simp) rfl
  have her : s1.q.erase id = rest := by rw [k5, List.erase_append_right _ hnr]; simp
  refine ⟨{ s1 with base := b', q := rest }, (o.id, o.size), ?_, ⟨⟨h2, ?_⟩, k2.mf⟩, k6.symm.trans h5, ?_, h6.trans k7, by rw [hid]; exact k9⟩
  · have h1' : s1.base.removeObjBase id = .ok b' := h1
    simp [evict, k1, qRemove, hmem, her, Base.evictBase, h1']
  · have := k2.q.erase_perm hid h4
    simp only [State.qs] at this ⊢
    rw [her] at this; exact this
  · rw [k8]
    unfold view
    exact viewOf_erase h3 (by simpa using hnr)

theorem toEvictLoop_eq {s : State} {a c : List ObjId} {id : ObjId} {o : Obj Nat}
    (hq : s.q.reverse = a ++ id :: c) (ho : s.base.lookup id = some o)
    (ha : ∀ y ∈ a, ∃ o', s.base.lookup y = some o' ∧ o.mt < o'.mt)
    (hc : ∀ y ∈ c, ∃ o', s.base.lookup y = some o' ∧ o.mt ≤ o'.mt) :
    ∀ n k, k ≤ o.mt → o.mt - k < n → toEvictLoop s n k = some id := by
  intro n
  induction n with
  | zero => intro k _ h; omega
  | succ n ih =>
    intro k hk hlt
    rw [toEvictLoop]
    by_cases he : k = o.mt
    · have : toEvictRound s k = some id := by
        unfold toEvictRound
        apply find?_split hq
        · intro y hy
          obtain ⟨o', h1, h2⟩ := ha y hy
          simp only [h1, decide_eq_false_iff_not]; omega
        · simp only [ho, decide_eq_true_eq]; omega
      simp [this]
    · have : toEvictRound s k = none := by
        unfold toEvictRound
        rw [List.find?_eq_none]
        intro y hy
        rw [hq] at hy
        simp only [List.mem_append, List.mem_cons] at hy
        rcases hy with hy | rfl | hy
        · obtain ⟨o', h1, h2⟩ := ha y hy
          simp only [h1, decide_eq_true_eq]; omega
        · simp only [ho, decide_eq_true_eq]; omega
        · obtain ⟨o', h1, h2⟩ := hc y hy
          simp only [h1, decide_eq_true_eq]; omega
      simp only [this]
      exact ih (k + 1) (by omega) (by omega)

theorem toEvict_spec {cs md mf : Nat} {s : State} (hi : Inv cs md mf s) (hne : s.base.tbl ≠ []) :
    ∃ id n s', toEvict s = some id ∧ evict s = .ok s' ∧ s.base.cached.Perm ((id, n) :: s'.base.cached) := by
  obtain ⟨s', v, h1, _, h3, _, _, h6⟩ := evict_spec hi hne
  refine ⟨v.1, v.2, s', ?_, h1, h3⟩
  obtain ⟨a, c, o, k1, k2, k3, k4⟩ := firstLowest_split (b := s.base) (q := s.q.reverse)
    (fun id hid => (hi.q.mem_iff id).1 (List.mem_reverse.1 hid)) h6
  apply toEvictLoop_eq k1 k2 k3 k4 _ _ (Nat.zero_le _)
  have : o.mt ≤ totalFreq s := by
    unfold totalFreq
    exact le_sum_of_mem (List.mem_map.2 ⟨o, (lookup_some_mem k2).1, rfl⟩)
  omega

theorem spec (cs md mf : Nat) :
    SBSpec algo (fun s => s.base) (fun s b => { s with base := b }) (Inv cs md mf) cs md where
  base_set := fun _ _ => rfl
  occ := fun _ => rfl
  nObj := fun _ => rfl
  csz := fun _ => rfl
  mdz := fun _ => rfl
  bumpEq := fun _ => rfl
  canEq := fun _ _ => rfl
  fuel := fun _ => Nat.le_refl _
  inv := fun h => h.q.base
  frame := fun n a h => ⟨h.q.frame n a, h.mf⟩
  findF := fun r _ => find_false _ r
  findHit := fun {s} r o h ho => by
    refine ⟨_, find_hit ho, ⟨(h.q.touchOnly r.id (touch r) (fun _ => rfl) (fun _ => rfl)).touchOnly r.id (inc s.maxFreq)
      (inc_id _) (inc_size _), h.mf⟩, ?_⟩
    simp only
    rw [Base.cached_modify _ _ _ (inc_id _) (inc_size _), Base.cached_modify _ _ (touch r) (fun _ => rfl) (fun _ => rfl)]
  findMiss := fun r _ ho => find_miss ho
  evict := fun {s} r h hne _ => by
    obtain ⟨s', v, h1, h2, h3, _⟩ := evict_spec h hne
    exact ⟨s', v, h1, h2, h3⟩
  insert := fun {s} r h hn hroom hsz => by
    obtain ⟨x, h1, h2, h3, h4⟩ := h.q.insert 0 r hn hroom hsz
    refine ⟨s.setQs x, ?_, ⟨h2, h.mf⟩, ?_⟩
    · show insert s r = _
      simp [insert, h1]
    · show x.base.cached.Perm _
      rw [h3, cached_insertBase]; rfl
  removeMiss := fun _ {s} id _ hn => by
    show remove s id = _
    have : s.qs.base.lookup id = none := hn
    simp [remove, QInv.remove_miss this]; rfl
  removeHit := fun _ {s} id o h ho => by
    obtain ⟨x, h1, h2, h3, _⟩ := h.q.remove_spec (id := id) ho
    refine ⟨s.setQs x, ?_, ⟨h2, h.mf⟩, h3⟩
    show remove s id = _
    simp [remove, h1]

theorem sim (cs md mf : Nat) :
    Sim algo (fun s => s.base) (fun s b => { s with base := b }) (Inv cs md mf) cs md (clock mf) view where
  contents := fun {s} h => by
    show ((view s).map Item.entry).Perm _
    unfold view
    rw [viewOf_map]
    exact viewOf_perm_tbl h.q.base.inv.nodup (s.q.reverse_perm.trans h.q.q)
  frame := fun _ _ _ => rfl
  findHit := fun {s s'} r o h ho hf => by
    have hf' : find s r true = .ok (true, s') := hf
    rw [find_hit ho] at hf'
    cases hf'
    refine ⟨?_, rfl⟩
    unfold view
    simp only
    rw [viewOf_modify (f := item) r.id (inc s.maxFreq) (inc_id _)
      (fun x => if x.id = r.id ∧ x.cnt < mf then { x with cnt := x.cnt + 1 } else x)]
    · rw [viewOf_modify (f := item) r.id (touch r) (fun _ => rfl) id]
      · simp [clock]
      · intro o; split <;> rfl
    · intro o
      rw [h.mf]
      unfold inc item cntItem
      by_cases h1 : o.id = r.id
      · by_cases h2 : o.mt < mf <;> simp [h1, h2]
      · simp [h1]
  evict := fun {s s'} r h hne he => by
    obtain ⟨s'', v, h1, _, _, h4, h5, _⟩ := evict_spec h hne
    have he' : evict s = .ok s' := he
    rw [h1] at he'; cases he'
    exact ⟨h4, h5⟩
  insert := fun {s s'} r h hn hroom hsz hi => by
    obtain ⟨x, h1, h2, h3, h4⟩ := h.q.insert 0 r hn hroom hsz
    have hi' : insert s r = .ok s' := hi
    simp only [insert, h1, Res.bind_ok] at hi'
    cases hi'
    refine ⟨?_, by show x.base.adm = _; rw [h3]; rfl⟩
    unfold view
    simp only [State.setQs, h3, h4, List.reverse_cons]
    rw [viewOf_append]
    have hnq := h.q.notMem_of_lookup hn
    have e1 : viewOf item (s.qs.base.insertBase 0 r) s.qs.q.reverse = viewOf item s.base s.q.reverse :=
      viewOf_insert 0 r (by simpa using hnq)
    rw [e1]
    have : (s.qs.base.insertBase 0 r).lookup r.id = some (Obj.ofReq 0 r) := by rw [lookup_insertBase]; simp
    rw [viewOf_cons this]
    rfl
  remove := fun {s s'} id o h ho hr => by
    obtain ⟨x, h1, _, _, h4, h5, h6⟩ := h.q.remove_spec (id := id) ho
    have hr' : remove s id = .ok (true, s') := hr
    simp only [remove, h1, Res.bind_ok] at hr'
    cases hr'
    refine ⟨?_, h6⟩
    unfold view
    simp only [State.setQs]
    have e1 : viewOf item x.base x.q.reverse = viewOf item s.base x.q.reverse := by
      apply viewOf_erase h5
      rw [h4, List.mem_reverse, h.q.nodup.mem_erase_iff]; simp
    rw [e1, h4, erase_eq_filter h.q.nodup, ← List.filter_reverse]
    exact viewOf_filter _ _ (fun o _ => rfl)

/-- everything but request counter and admission state -/
def core (s : State) : Quiet Nat × List ObjId × Nat × Nat × Nat := (s.base.quiet, s.q, s.maxFreq, s.nRew, s.byteRew)

theorem strong (cs md mf : Nat) : SBStrong algo (fun s => s.base) (Inv cs md mf) cs md core :=
  (spec cs md mf).strong core (fun _ _ _ => rfl)

theorem inv_init (cs md mf : Nat) (adm : Adm) : Inv cs md mf (init cs md mf adm) :=
  ⟨QInv.init cs md adm, rfl⟩

end Verif.Clock
