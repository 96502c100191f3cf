import Verif.Proof.View
import Verif.Algo.Sieve
/-!
# SIEVE
-/

namespace Verif.Sieve
open Verif Spec

abbrev item := cntItem

/-- The objects from oldest to newest, split at the hand. -/
def view (s : State) : SieveState :=
  match s.hand with
  | none => ⟨[], viewOf item s.base s.q.reverse⟩
  | some h => ⟨viewOf item s.base (s.q.reverse.takeWhile (fun x => x ≠ h)),
      viewOf item s.base (s.q.reverse.dropWhile (fun x => x ≠ h))⟩

structure Inv (cs md : Nat) (s : State) : Prop where
  q : QInv cs md s.qs
  hand : ∀ h, s.hand = some h → h ∈ s.q

theorem takeWhile_split {l m : List ObjId} {x : ObjId} (h : x ∉ l) :
    (l ++ x :: m).takeWhile (fun y => decide (y ≠ x)) = l := by
  induction l with
  | nil => simp
  | cons a l ih =>
    simp only [List.mem_cons, not_or] at h
    have : a ≠ x := fun e => h.1 e.symm
    rw [List.cons_append, List.takeWhile_cons, if_pos (by simpa using this), ih h.2]

theorem dropWhile_split {l m : List ObjId} {x : ObjId} (h : x ∉ l) :
    (l ++ x :: m).dropWhile (fun y => decide (y ≠ x)) = x :: m := by
  induction l with
  | nil => simp
  | cons a l ih =>
    simp only [List.mem_cons, not_or] at h
    have : a ≠ x := fun e => h.1 e.symm
    rw [List.cons_append, List.dropWhile_cons, if_pos (by simpa using this), ih h.2]

theorem prevOf_notMem {l : List ObjId} {x a : ObjId} (h : x ∉ l) : prevOf (a :: l) x = none := by
  induction l generalizing a with
  | nil => rfl
  | cons b l ih =>
    simp only [List.mem_cons, not_or] at h
    have : b ≠ x := fun e => h.1 e.symm
    rw [prevOf, if_neg this]
    exact ih h.2

theorem prevOf_split {l m : List ObjId} {x : ObjId} (h : x ∉ l) (hm : x ∉ m) :
    prevOf (l ++ x :: m) x = l.getLast? := by
  induction l with
  | nil => exact prevOf_notMem hm
  | cons a l ih =>
    simp only [List.mem_cons, not_or] at h
    cases l with
    | nil => simp [prevOf]
    | cons b l =>
      have : b ≠ x := fun e => h.2 (by simp [e])
      rw [List.cons_append, List.cons_append, prevOf, if_neg this]
      rw [List.getLast?_cons_cons]
      exact ih h.2

/-- In queue order (head first) the previous of `x` is the next one in age order. -/
theorem prevOf_rev {q A B : List ObjId} {x : ObjId} (hq : q.reverse = A ++ x :: B) (hn : q.Nodup) :
    prevOf q x = B.head? := by
  have e : q = B.reverse ++ x :: A.reverse := by
    have := congrArg List.reverse hq
    simpa using this
  have hn' : (A ++ x :: B).Nodup := by rw [← hq]; exact List.nodup_reverse.2 hn
  rw [List.nodup_append] at hn'
  obtain ⟨_, h2, h3⟩ := hn'
  rw [List.nodup_cons] at h2
  rw [e, prevOf_split]
  · simp
  · simpa using h2.1
  · simpa using fun hx => h3 x hx x (by simp) rfl

theorem split_notMem {q A B : List ObjId} {x : ObjId} (hq : q.reverse = A ++ x :: B) (hn : q.Nodup) :
    x ∉ A ∧ x ∉ B := by
  have hn' : (A ++ x :: B).Nodup := by rw [← hq]; exact List.nodup_reverse.2 hn
  rw [List.nodup_append] at hn'
  obtain ⟨_, h2, h3⟩ := hn'
  rw [List.nodup_cons] at h2
  exact ⟨fun hx => h3 x hx x (by simp) rfl, h2.1⟩

/-- Marks left in the cache. -/
def marks (s : State) : Nat := (s.base.tbl.map (·.mt)).sum

theorem marks_eq {cs md : Nat} {s : State} (h : QInv cs md s.qs) {A B : List ObjId}
    (hq : s.q.reverse = A ++ B) :
    ((viewOf item s.base A ++ viewOf item s.base B).map Item.cnt).sum = marks s := by
  unfold marks
  rw [← viewOf_append, ← hq, viewOf_map]
  exact List.Perm.sum_nat <| viewOf_perm_tbl h.base.inv.nodup (s.q.reverse_perm.trans h.q)

def dec : Obj Nat → Obj Nat := fun o => { o with mt := o.mt - 1 }

theorem wrap_wrap (t : SieveState) : t.wrap.wrap = t.wrap := by
  unfold SieveState.wrap
  rcases t with ⟨p, a⟩
  cases a <;> simp
  cases p <;> simp

theorem wrap_cons (p : List Item) (x : Item) (a : List Item) : (SieveState.mk p (x :: a)).wrap = ⟨p, x :: a⟩ := rfl
theorem wrap_nil (p : List Item) : (SieveState.mk p []).wrap = ⟨[], p⟩ := rfl

theorem sieveScan_wrap (n : Nat) (p : List Item) (hp : p ≠ []) : sieveScan n ⟨p, []⟩ = if n = 0 then ⟨p, []⟩ else sieveScan n ⟨[], p⟩ := by
  cases n with
  | zero => rfl
  | succ n =>
    obtain ⟨x, l, rfl⟩ := List.exists_cons_of_ne_nil hp
    simp only [sieveScan, wrap_nil, wrap_cons]
    simp

theorem scan_spec (cs md : Nat) : ∀ n s A id B, QInv cs md s.qs → s.q.reverse = A ++ id :: B → marks s < n →
    ∃ vid o s' A' B', scan n s id = .ok (vid, s') ∧ QInv cs md s'.qs ∧ s'.base.lookup vid = some o ∧ o.mt = 0 ∧
      s'.q = s.q ∧ s'.hand = s.hand ∧ s.q.reverse = A' ++ vid :: B' ∧ s'.base.cached.Perm s.base.cached ∧
      s'.base.adm = s.base.adm ∧
      sieveScan n ⟨viewOf item s.base A, viewOf item s.base (id :: B)⟩ =
        (SieveState.mk (viewOf item s'.base A') (viewOf item s'.base B')).wrap ∧
      IsFirstLowest (viewOf item s.base ((id :: B) ++ A)) vid := by
  intro n
  induction n with
  | zero => intro s A id B _ _ h; omega
  | succ n ih =>
    intro s A id B hi hsplit hlt
    have hmem : id ∈ s.q := by rw [← List.mem_reverse, hsplit]; simp
    obtain ⟨o, ho⟩ := (hi.mem_iff id).1 hmem
    have ho' : s.base.lookup id = some o := ho
    by_cases hz : o.mt = 0
    · refine ⟨id, o, s, A, B, ?_, hi, ho', hz, rfl, rfl, hsplit, List.Perm.refl _, rfl, ?_⟩
      · simp [scan, ho', hz]
      · refine ⟨?_, ?_⟩
        · rw [viewOf_cons ho']
          simp only [sieveScan, wrap_cons]
          simp [item, cntItem, hz]
        · rw [List.cons_append, viewOf_cons ho']
          have hf := firstLowest_zero (x := item o) (t := viewOf item s.base (B ++ A)) hz
          rw [show (item o).id = id from (lookup_some_mem ho').2] at hf
          exact hf
    · have hpos : o.mt > 0 := by omega
      have hnd := hi.nodup
      obtain ⟨hnA, hnB⟩ := split_notMem hsplit hnd
      have hprev := prevOf_rev hsplit hnd
      let s1 : State := { s with base := s.base.modify id dec }
      have hi1 : QInv cs md s1.qs := hi.touchOnly id dec (fun _ => rfl) (fun _ => rfl)
      have hlk : s1.base.lookup id = some (dec o) := lookup_modify_self (f := dec) (fun _ => rfl) ho'
      have hvA : viewOf item s1.base A = viewOf item s.base A := by
        apply viewOf_congr
        intro x hx
        rw [show s1.base = s.base.modify id dec from rfl, lookup_modify_ne (f := dec) (fun _ => rfl)]
        rintro rfl; exact hnA hx
      have hvB : viewOf item s1.base B = viewOf item s.base B := by
        apply viewOf_congr
        intro x hx
        rw [show s1.base = s.base.modify id dec from rfl, lookup_modify_ne (f := dec) (fun _ => rfl)]
        rintro rfl; exact hnB hx
      have hvA' : viewOf item s1.base (A ++ [id]) = viewOf item s.base A ++ [{ item o with cnt := o.mt - 1 }] := by
        rw [viewOf_append, hvA, viewOf_cons hlk]; rfl
      have hm1 : marks s1 < n := by
        have e0 := marks_eq hi hsplit
        have e1 := marks_eq (s := s1) hi1 (A := A ++ [id]) (B := B) (by simpa [s1] using hsplit)
        rw [hvA', hvB] at e1
        rw [viewOf_cons ho'] at e0
        simp only [List.map_append, List.map_cons, List.sum_append, List.sum_cons, List.map_nil, List.sum_nil, item, cntItem] at e0 e1
        omega
      have hrot : ∀ {v}, IsFirstLowest (viewOf item s1.base ((B ++ A) ++ [id])) v →
          IsFirstLowest (viewOf item s.base ((id :: B) ++ A)) v := by
        intro v hv
        rw [List.cons_append, viewOf_cons ho']
        refine firstLowest_rotate (x := item o) hz ?_
        rw [viewOf_append, viewOf_append, hvA, hvB, ← viewOf_append, viewOf_cons hlk] at hv
        exact hv
      have hcach : s1.base.cached = s.base.cached := Base.cached_modify _ _ dec (fun _ => rfl) (fun _ => rfl)
      have hspec : sieveScan (n + 1) ⟨viewOf item s.base A, viewOf item s.base (id :: B)⟩ =
          sieveScan n ⟨viewOf item s1.base (A ++ [id]), viewOf item s1.base B⟩ := by
        rw [viewOf_cons ho', hvA', hvB]
        simp only [sieveScan, wrap_cons]
        rw [if_neg (by exact hz)]
        rfl
      cases B with
      | cons p B =>
        simp only [List.head?_cons] at hprev
        obtain ⟨vid, ov, s', A', B', k1, k2, k3, k4, k5, k6, k7, k8, k9, k10, k11⟩ :=
          ih s1 (A ++ [id]) p B hi1 (by simpa [s1] using hsplit) hm1
        refine ⟨vid, ov, s', A', B', ?_, k2, k3, k4, k5, k6, k7, ?_, k9, ?_⟩
        · rw [scan]; simp only [ho', hpos, if_true, hprev]; exact k1
        · rw [← hcach]; exact k8
        · refine ⟨by rw [hspec, k10], hrot ?_⟩
          have e : (p :: B) ++ (A ++ [id]) = (p :: B ++ A) ++ [id] := by simp
          rw [e] at k11; exact k11
      | nil =>
        simp only [List.head?_nil] at hprev
        have hne : s.q.reverse ≠ [] := by rw [hsplit]; simp
        obtain ⟨t, T, hT⟩ := List.exists_cons_of_ne_nil hne
        have htail : qTail s.q = .ok t := by
          have : s.q = T.reverse ++ [t] := by
            have := congrArg List.reverse hT; simpa using this
          simp [qTail, this]
        obtain ⟨vid, ov, s', A', B', k1, k2, k3, k4, k5, k6, k7, k8, k9, k10, k11⟩ :=
          ih s1 [] t T hi1 (by simpa [s1] using hT) hm1
        refine ⟨vid, ov, s', A', B', ?_, k2, k3, k4, k5, k6, k7, ?_, k9, ?_⟩
        · rw [scan]; simp only [ho', hpos, if_true, hprev, htail, Res.bind_ok]; exact k1
        · rw [← hcach]; exact k8
        · have eAT : A ++ [id] = t :: T := by rw [← hsplit, hT]
          refine ⟨?_, hrot ?_⟩
          on_goal 2 =>
            rw [List.append_nil, ← eAT] at k11
            simpa using k11
          rw [hspec, ← k10, viewOf_nil, sieveScan_wrap _ _ (by rw [hvA']; simp)]
          have hn0 : n ≠ 0 := by omega
          rw [if_neg hn0]
          rw [eAT]

theorem find_false (s : State) (r : Req) : find s r false = .ok ((s.base.lookup r.id).isSome, s) := by
  unfold find
  rw [findBase_false]
  cases h : s.base.lookup r.id <;> simp

def mark : Obj Nat → Obj Nat := fun o => { o with mt := 1 }

theorem find_hit {s : State} {r : Req} {o : Obj Nat} (ho : s.base.lookup r.id = some o) :
    find s r true = .ok (true, { s with base := (s.base.modify r.id (touch r)).modify r.id mark }) := by
  simp [find, findBase_hit ho]; rfl

theorem find_miss {s : State} {r : Req} (ho : s.base.lookup r.id = none) : find s r true = .ok (false, s) := by
  simp [find, findBase_miss ho]

/-- The view for a given place of the hand. -/
theorem view_some {s : State} {h : ObjId} {A B : List ObjId} (hh : s.hand = some h)
    (hq : s.q.reverse = A ++ h :: B) (hn : s.q.Nodup) :
    view s = ⟨viewOf item s.base A, viewOf item s.base (h :: B)⟩ := by
  have := (split_notMem hq hn).1
  simp only [view, hh, hq, takeWhile_split this, dropWhile_split this]

theorem view_start {cs md : Nat} {s : State} (hi : Inv cs md s) (hne : s.base.tbl ≠ []) :
    ∃ A id B, s.q.reverse = A ++ id :: B ∧ view s = ⟨viewOf item s.base A, viewOf item s.base (id :: B)⟩ ∧
      startOf s = .ok id := by
  cases hh : s.hand with
  | none =>
    have hq : s.q.reverse ≠ [] := by
      intro h0
      have := hi.q.q.length_eq
      simp only [List.reverse_eq_nil_iff] at h0
      simp only [State.qs, h0, List.length_nil, List.length_map] at this
      exact hne (List.length_eq_zero_iff.1 this.symm)
    obtain ⟨t, T, hT⟩ := List.exists_cons_of_ne_nil hq
    refine ⟨[], t, T, hT, ?_, ?_⟩
    · simp only [view, hh, hT, viewOf_nil]
    · have : s.q = T.reverse ++ [t] := by
        have := congrArg List.reverse hT; simpa using this
      simp [startOf, hh, qTail, this]
  | some h =>
    have hm : h ∈ s.q.reverse := List.mem_reverse.2 (hi.hand h hh)
    obtain ⟨A, B, hAB⟩ := List.append_of_mem hm
    exact ⟨A, h, B, hAB, view_some hh hAB hi.q.nodup, by simp [startOf, hh]⟩

theorem evict_spec {cs md : Nat} {s : State} (hi : Inv cs md s) (hne : s.base.tbl ≠ []) :
    ∃ s' v, evict s = .ok s' ∧ Inv cs md s' ∧ s.base.cached.Perm (v :: s'.base.cached) ∧
      view s' = sieve.evict (view s) ∧ s'.base.adm = s.base.adm ∧
      IsFirstLowest ((view s).ahead ++ (view s).passed) v.1 := by
  obtain ⟨A, id, B, hsplit, hview, hstart⟩ := view_start hi hne
  have hfuel : fuelOf s = marks s + 1 := rfl
  obtain ⟨vid, o, s1, A', B', k1, k2, k3, k4, k5, k6, k7, k8, k9, k10, k11⟩ :=
    scan_spec cs md (fuelOf s) s A id B hi.q hsplit (by omega)
  have k3' : s1.qs.base.lookup vid = some o := k3
  obtain ⟨b', h1, h2, h3, h4, h5, h6, h7⟩ := k2.base.remove k3'
  have hvid : vid ∈ s1.q := by rw [k5, ← List.mem_reverse, k7]; simp
  have hid := (lookup_some_mem k3).2
  have hnd := hi.q.nodup
  have hnd1 : s1.q.Nodup := k2.nodup
  obtain ⟨hnA, hnB⟩ := split_notMem k7 hnd
  have hprev : prevOf s1.q vid = B'.head? := by rw [k5]; exact prevOf_rev k7 hnd
  have herase : (s1.q.erase vid).reverse = A' ++ B' := by
    rw [erase_eq_filter hnd1, ← List.filter_reverse, k5, k7, List.filter_append, List.filter_cons_of_neg (by simp)]
    congr 1
    · rw [List.filter_eq_self]; intro x hx; simp only [decide_eq_true_eq]; rintro rfl; exact hnA hx
    · rw [List.filter_eq_self]; intro x hx; simp only [decide_eq_true_eq]; rintro rfl; exact hnB hx
  have hvA : viewOf item b' A' = viewOf item s1.base A' := viewOf_erase h3 hnA
  have hvB : viewOf item b' B' = viewOf item s1.base B' := viewOf_erase h3 hnB
  have hq' : QInv cs md (State.qs { base := b', q := s1.q.erase vid, hand := B'.head? }) := by
    refine ⟨h2, ?_⟩
    have := k2.erase_perm hid h4
    exact this
  refine ⟨{ base := b', q := s1.q.erase vid, hand := B'.head? }, (o.id, o.size), ?_, ⟨hq', ?_⟩,
    k8.symm.trans h5, ?_, h6.trans k9, ?_⟩
  · have h1' : s1.base.removeObjBase vid = .ok b' := h1
    simp only [evict, hstart, Res.bind_ok, k1]
    simp [qRemove, hvid, Base.evictBase, h1', hprev]
  · intro h hh
    rw [← List.mem_reverse]
    simp only at hh ⊢
    rw [herase]
    cases B' with
    | nil => simp at hh
    | cons p B' => simp only [List.head?_cons, Option.some.injEq] at hh; subst hh; simp
  · have hsum : (((view s).passed ++ (view s).ahead).map Item.cnt).sum + 1 = fuelOf s := by
      rw [hview, hfuel, ← marks_eq hi.q hsplit]
    show _ = sieveScan _ (view s)
    rw [hsum, hview, k10, ← hvA, ← hvB]
    cases B' with
    | nil =>
      simp only [List.head?_nil, viewOf_nil, wrap_nil, view]
      rw [herase]; simp
    | cons p B' =>
      have hlp : ∃ o, b'.lookup p = some o := by
        have : p ∈ (State.qs { base := b', q := s1.q.erase vid, hand := some p }).q := by
          show p ∈ s1.q.erase vid
          rw [← List.mem_reverse, herase]; simp
        exact (hq'.mem_iff p).1 this
      obtain ⟨op, hop⟩ := hlp
      rw [view_some (h := p) (A := A') (B := B') rfl herase hq'.nodup]
      rw [viewOf_cons hop, wrap_cons]
  · rw [hview, hid, ← viewOf_append]; exact k11

theorem passed_ahead (s : State) :
    (view s).passed ++ (view s).ahead = viewOf item s.base s.q.reverse := by
  cases hh : s.hand with
  | none => simp [view, hh]
  | some h =>
    simp only [view, hh]
    rw [← viewOf_append, List.takeWhile_append_dropWhile]

/-- A change of the objects that keeps ids acts pointwise on the view. -/
theorem view_modify {s : State} (id : ObjId) (g : Obj Nat → Obj Nat) (h : Item → Item)
    (hid : ∀ o, (g o).id = o.id) (hh : ∀ o, item (if o.id = id then g o else o) = h (item o)) :
    view { s with base := s.base.modify id g } = ⟨(view s).passed.map h, (view s).ahead.map h⟩ := by
  unfold view
  cases s.hand with
  | none => simp only [viewOf_modify (f := item) id g hid h hh, List.map_nil]
  | some x => simp only [viewOf_modify (f := item) id g hid h hh]

theorem remove_spec {cs md : Nat} {s : State} {id : ObjId} {o : Obj Nat} (hi : Inv cs md s)
    (ho : s.base.lookup id = some o) :
    ∃ s', remove s id = .ok (true, s') ∧ Inv cs md s' ∧ s.base.cached.Perm ((o.id, o.size) :: s'.base.cached) ∧
      view s' = sieve.remove (view s) id ∧ s'.base.adm = s.base.adm := by
  have ho' : s.qs.base.lookup id = some o := ho
  obtain ⟨b', h1, h2, h3, h4, h5, h6, h7⟩ := hi.q.base.remove ho'
  have hmem : id ∈ s.q := hi.q.mem_of_lookup ho'
  have hid := (lookup_some_mem ho).2
  have hnd : s.q.Nodup := hi.q.nodup
  have hperm := hi.q.erase_perm hid h4
  -- the two parts of the view after deleting the object
  have hfil : ∀ l : List ObjId, viewOf item b' (l.filter (fun x => decide (x ≠ id))) =
      (viewOf item s.base l).filter (fun x => decide (x.id ≠ id)) := by
    intro l
    rw [viewOf_erase h3 (by simp)]
    exact viewOf_filter _ _ (fun o _ => rfl)
  have her : (s.q.erase id).reverse = s.q.reverse.filter (fun x => decide (x ≠ id)) := by
    rw [erase_eq_filter hnd, List.filter_reverse]
  refine ⟨{ base := b', q := s.q.erase id, hand := if s.hand = some id then prevOf s.q id else s.hand }, ?_, ⟨⟨h2, hperm⟩, ?_⟩, h5, ?_, h6⟩
  · have h1' : s.base.removeObjBase id = .ok b' := h1
    simp [remove, ho, qRemove, hmem, h1']
  · intro h hh
    simp only at hh ⊢
    rw [hnd.mem_erase_iff]
    by_cases hc : s.hand = some id
    · rw [if_pos hc] at hh
      obtain ⟨A, B, hAB⟩ := List.append_of_mem (List.mem_reverse.2 hmem)
      rw [prevOf_rev hAB hnd] at hh
      obtain ⟨hnA, hnB⟩ := split_notMem hAB hnd
      cases B with
      | nil => simp at hh
      | cons p B =>
        simp only [List.head?_cons, Option.some.injEq] at hh
        subst hh
        refine ⟨fun e => hnB (by simp [e]), ?_⟩
        rw [← List.mem_reverse, hAB]; simp
    · rw [if_neg hc] at hh
      exact ⟨fun e => hc (e ▸ hh), hi.hand h hh⟩
  · show _ = (SieveState.mk _ _).wrap
    have hnd' : (s.q.erase id).Nodup := hnd.erase _
    cases hh : s.hand with
    | none =>
      have hv : view { base := b', q := s.q.erase id, hand := if (none : Option ObjId) = some id then prevOf s.q id else none }
          = ⟨[], viewOf item b' (s.q.erase id).reverse⟩ := by simp [view]
      rw [hv, her, hfil]
      have hv0 : view s = ⟨[], viewOf item s.base s.q.reverse⟩ := by simp [view, hh]
      rw [hv0]
      simp only [List.filter_nil]
      cases hx : (viewOf item s.base s.q.reverse).filter (fun x => decide (x.id ≠ id)) with
      | nil => rfl
      | cons a l => rfl
    | some h =>
      obtain ⟨A, B, hAB⟩ := List.append_of_mem (List.mem_reverse.2 (hi.hand h hh))
      have hv0 := view_some hh hAB hnd
      obtain ⟨hnA, hnB⟩ := split_notMem hAB hnd
      rw [hv0]
      simp only
      rw [← hfil, ← hfil]
      by_cases hc : h = id
      · subst hc
        have eA : A.filter (fun x => decide (x ≠ h)) = A := by
          rw [List.filter_eq_self]; intro x hx; simp only [decide_eq_true_eq]; rintro rfl; exact hnA hx
        have eB : (h :: B).filter (fun x => decide (x ≠ h)) = B := by
          rw [List.filter_cons_of_neg (by simp), List.filter_eq_self]; intro x hx; simp only [decide_eq_true_eq]; rintro rfl; exact hnB hx
        rw [eA, eB]
        have hAB' : (s.q.erase h).reverse = A ++ B := by
          rw [her, hAB, List.filter_append, eA, eB]
        rw [if_pos rfl, prevOf_rev hAB hnd]
        cases B with
        | nil =>
          simp only [List.head?_nil, view, hAB', List.append_nil, viewOf_nil, wrap_nil]
        | cons p B =>
          have hlp : ∃ o, b'.lookup p = some o := by
            have : p ∈ s.q.erase h := by rw [← List.mem_reverse, hAB']; simp
            exact mem_ids_iff_exists.1 (hperm.subset this)
          obtain ⟨op, hop⟩ := hlp
          rw [view_some (h := p) (A := A) (B := B) rfl hAB' hnd', viewOf_cons hop, wrap_cons]
      · have hne : ¬ (some h = some id) := by simpa using hc
        rw [if_neg hne]
        have eB : (h :: B).filter (fun x => decide (x ≠ id)) = h :: B.filter (fun x => decide (x ≠ id)) := by
          rw [List.filter_cons_of_pos (by simpa using hc)]
        have hAB' : (s.q.erase id).reverse = A.filter (fun x => decide (x ≠ id)) ++ h :: B.filter (fun x => decide (x ≠ id)) := by
          rw [her, hAB, List.filter_append, eB]
        rw [eB]
        have hlp : ∃ o, b'.lookup h = some o := by
          have : h ∈ s.q.erase id := by rw [← List.mem_reverse, hAB']; simp
          exact mem_ids_iff_exists.1 (hperm.subset this)
        obtain ⟨op, hop⟩ := hlp
        rw [view_some (h := h) rfl hAB' hnd', viewOf_cons hop, wrap_cons]

theorem insert_spec {cs md : Nat} {s : State} {r : Req} (h : Inv cs md s) (hn : s.base.lookup r.id = none)
    (hroom : s.base.occ + r.size + md ≤ cs) (hsz : SizeOk md r) :
    ∃ s', insert s r = .ok s' ∧ Inv cs md s' ∧ s'.base.cached = (r.id, r.size % u32) :: s.base.cached ∧
      view s' = sieve.insert (view s) r ∧ s'.base.adm = s.base.adm := by
  have hn' : s.qs.base.lookup r.id = none := hn
  obtain ⟨x, h1, h2, h3, h4⟩ := h.q.insert 0 r hn' hroom hsz
  have h4' : x.q = r.id :: s.q := h4
  have h3' : x.base = s.base.insertBase 0 r := h3
  refine ⟨{ s with base := x.base, q := x.q }, by simp [insert, h1], ⟨h2, ?_⟩, ?_, ?_, by simp only [h3']; rfl⟩
  · intro k hk
    have := h.hand k hk
    simp only [h4']; simp [this]
  · simp only [h3', cached_insertBase]
  · have hnq : r.id ∉ s.q := h.q.notMem_of_lookup hn'
    have hlk : (s.base.insertBase 0 r).lookup r.id = some (Obj.ofReq 0 r) := by rw [lookup_insertBase]; simp
    cases hh : s.hand with
    | none =>
      simp only [view, hh, sieve, h3', h4', List.reverse_cons]
      rw [viewOf_append, viewOf_insert 0 r (by simpa using hnq), viewOf_cons hlk]; rfl
    | some k =>
      obtain ⟨A, B, hAB⟩ := List.append_of_mem (List.mem_reverse.2 (h.hand k hh))
      have hnd := h.q.nodup
      rw [view_some hh hAB hnd]
      have hAB' : x.q.reverse = A ++ k :: (B ++ [r.id]) := by rw [h4', List.reverse_cons, hAB]; simp
      rw [view_some (s := { base := x.base, q := x.q, hand := some k }) rfl hAB' h2.nodup]
      have hnAB : r.id ∉ A ++ k :: B := by rw [← hAB]; simpa using hnq
      simp only [List.mem_append, not_or] at hnAB
      simp only [sieve, h3']
      rw [viewOf_insert 0 r hnAB.1, ← List.cons_append, viewOf_append, viewOf_insert 0 r hnAB.2, viewOf_cons hlk]; rfl

theorem toEvictLoop_eq {s : State} {passed a c : List ObjId} {id : ObjId} {o : Obj Nat}
    (hrev : s.q.reverse = passed ++ ahead s)
    (hq : ahead s ++ passed = a ++ id :: c) (ho : s.base.lookup id = some o)
    (ha : ∀ y ∈ a, ∃ o', s.base.lookup y = some o' ∧ o.mt < o'.mt)
    (hc : ∀ y ∈ c, ∃ o', s.base.lookup y = some o' ∧ o.mt ≤ o'.mt) :
    ∀ n k, k ≤ o.mt → o.mt - k < n → toEvictLoop s n k = some id := by
  have hstep : ∀ k, toEvictWithFreq s k = (ahead s ++ passed).find? (fun id => match s.base.lookup id with
      | some o => decide (¬ o.mt > k)
      | none => true) := by
    intro k
    unfold toEvictWithFreq walk
    rw [hrev]
    rw [List.find?_append, List.find?_append]
    generalize hA : List.find? _ (ahead s) = r1
    generalize hP : List.find? _ passed = r2
    cases r1 <;> cases r2 <;> simp
  intro n
  induction n with
  | zero => intro k _ h; omega
  | succ n ih =>
    intro k hk hlt
    rw [toEvictLoop]
    by_cases he : k = o.mt
    · have : toEvictWithFreq s k = some id := by
        rw [hstep]
        apply find?_split hq
        · intro y hy
          obtain ⟨o', h1, h2⟩ := ha y hy
          simp only [h1, decide_eq_false_iff_not]; omega
        · simp only [ho, decide_eq_true_eq]; omega
      simp [this]
    · have : toEvictWithFreq s k = none := by
        rw [hstep, List.find?_eq_none]
        intro y hy
        rw [hq] at hy
        simp only [List.mem_append, List.mem_cons] at hy
        rcases hy with hy | rfl | hy
        · obtain ⟨o', h1, h2⟩ := ha y hy
          simp only [h1, decide_eq_true_eq]; omega
        · simp only [ho, decide_eq_true_eq]; omega
        · obtain ⟨o', h1, h2⟩ := hc y hy
          simp only [h1, decide_eq_true_eq]; omega
      simp only [this]
      exact ih (k + 1) (by omega) (by omega)

theorem toEvict_spec {cs md : Nat} {s : State} (hi : Inv cs md s) (hne : s.base.tbl ≠ []) :
    ∃ id n s', toEvict s = some id ∧ evict s = .ok s' ∧ s.base.cached.Perm ((id, n) :: s'.base.cached) := by
  obtain ⟨s', v, h1, _, h3, _, _, h6⟩ := evict_spec hi hne
  refine ⟨v.1, v.2, s', ?_, h1, h3⟩
  obtain ⟨passed, hrev, hv⟩ : ∃ passed, s.q.reverse = passed ++ ahead s ∧
      (view s).ahead ++ (view s).passed = viewOf item s.base (ahead s ++ passed) := by
    cases hh : s.hand with
    | none => exact ⟨[], by simp [ahead, hh], by simp [view, ahead, hh]⟩
    | some h =>
      refine ⟨s.q.reverse.takeWhile (fun x => decide (x ≠ h)), ?_, ?_⟩
      · simp only [ahead, hh]; exact (List.takeWhile_append_dropWhile).symm
      · simp only [view, ahead, hh]; rw [viewOf_append]; rfl
  rw [hv] at h6
  obtain ⟨a, c, o, k1, k2, k3, k4⟩ := firstLowest_split (b := s.base) (q := ahead s ++ passed)
    (fun id hid => (hi.q.mem_iff id).1 (by
      show id ∈ s.q
      rw [← List.mem_reverse, hrev]; simp only [List.mem_append] at hid ⊢; exact hid.symm)) h6
  apply toEvictLoop_eq hrev k1 k2 k3 k4 _ _ (Nat.zero_le _)
  have : o.mt ≤ marks s := le_sum_of_mem (List.mem_map.2 ⟨o, (lookup_some_mem k2).1, rfl⟩)
  unfold marks at this
  omega

theorem spec (cs md : Nat) :
    SBSpec algo (fun s => s.base) (fun s b => { s with base := b }) (Inv cs md) cs md where
  base_set := fun _ _ => rfl
  occ := fun _ => rfl
  nObj := fun _ => rfl
  csz := fun _ => rfl
  mdz := fun _ => rfl
  bumpEq := fun _ => rfl
  canEq := fun _ _ => rfl
  fuel := fun _ => Nat.le_refl _
  inv := fun h => h.q.base
  frame := fun n a h => ⟨h.q.frame n a, h.hand⟩
  findF := fun r _ => find_false _ r
  findHit := fun {s} r o h ho => by
    refine ⟨_, find_hit ho, ⟨(h.q.touchOnly r.id (touch r) (fun _ => rfl) (fun _ => rfl)).touchOnly r.id mark
      (fun _ => rfl) (fun _ => rfl), h.hand⟩, ?_⟩
    simp only
    rw [Base.cached_modify _ _ mark (fun _ => rfl) (fun _ => rfl), Base.cached_modify _ _ (touch r) (fun _ => rfl) (fun _ => rfl)]
  findMiss := fun r _ ho => find_miss ho
  evict := fun {s} r h hne _ => by
    obtain ⟨s', v, h1, h2, h3, _⟩ := evict_spec h hne
    exact ⟨s', v, h1, h2, h3⟩
  insert := fun {s} r h hn hroom hsz => by
    obtain ⟨s', h1, h2, h3, _⟩ := insert_spec h hn hroom hsz
    exact ⟨s', h1, h2, by rw [h3]⟩
  removeMiss := fun _ {s} id _ hn => by
    show remove s id = _
    simp [remove, hn]
  removeHit := fun _ {s} id o h ho => by
    obtain ⟨s', h1, h2, h3, _⟩ := remove_spec h ho
    exact ⟨s', h1, h2, h3⟩

theorem sim (cs md : Nat) :
    Sim algo (fun s => s.base) (fun s b => { s with base := b }) (Inv cs md) cs md sieve view where
  contents := fun {s} h => by
    show (((view s).passed ++ (view s).ahead).map Item.entry).Perm _
    rw [passed_ahead s, viewOf_map]
    exact viewOf_perm_tbl h.q.base.inv.nodup (s.q.reverse_perm.trans h.q.q)
  frame := fun s n a => rfl
  findHit := fun {s s'} r o h ho hf => by
    have hf' : find s r true = .ok (true, s') := hf
    rw [find_hit ho] at hf'
    cases hf'
    refine ⟨?_, rfl⟩
    have e1 := view_modify (s := { s with base := s.base.modify r.id (touch r) }) r.id mark
      (fun x => if x.id = r.id then { x with cnt := 1 } else x) (fun _ => rfl) (by
        intro o; by_cases h1 : o.id = r.id <;> simp [h1, item, cntItem, mark])
    have e2 := view_modify (s := s) r.id (touch r) id (fun _ => rfl) (by intro o; split <;> rfl)
    rw [e1, e2]
    simp [sieve]
  evict := fun {s s'} r h hne he => by
    obtain ⟨s'', v, h1, _, _, h4, h5, _⟩ := evict_spec h hne
    have he' : evict s = .ok s' := he
    rw [h1] at he'; cases he'
    exact ⟨h4, h5⟩
  insert := fun {s s'} r h hn hroom hsz hi => by
    obtain ⟨s'', h1, _, _, h4, h5⟩ := insert_spec h hn hroom hsz
    have hi' : insert s r = .ok s' := hi
    rw [h1] at hi'; cases hi'
    exact ⟨h4, h5⟩
  remove := fun {s s'} id o h ho hr => by
    obtain ⟨s'', h1, _, _, h4, h5⟩ := remove_spec h ho
    have hr' : remove s id = .ok (true, s') := hr
    rw [h1] at hr'; cases hr'
    exact ⟨h4, h5⟩

/-- everything but request counter and admission state -/
def core (s : State) : Quiet Nat × List ObjId × Option ObjId := (s.base.quiet, s.q, s.hand)

theorem strong (cs md : Nat) : SBStrong algo (fun s => s.base) (Inv cs md) cs md core :=
  (spec cs md).strong core (fun _ _ _ => rfl)

theorem inv_init (cs md : Nat) (adm : Adm) : Inv cs md (init cs md adm) :=
  ⟨QInv.init cs md adm, by simp [init]⟩

end Verif.Sieve
