import Verif.Algo.SieveBelady
import Verif.Proof.Dated
import Verif.Proof.Sieve
/-!
# Sieve_Belady is the reference queue with a hand
-/

namespace Verif.SieveBelady
open Verif Spec Spec.Dated
open Verif.BeladyQueue (Thresh)

/-- The state seen by the specification. -/
def view (s : State) : Dated.Sieve :=
  { objs := viewOf entOf s.base s.q.reverse, reqs := s.base.nReq, misses := s.nMiss, adm := s.base.adm, hand := s.hand }

structure Inv (cs md : Nat) (s : State) : Prop where
  q : QInv cs md s.qs
  hand : ∀ h, s.hand = some h → h ∈ s.q

variable {cs md : Nat} {T : Thresh} {s : State}

theorem inv_init (cs md : Nat) (adm : Adm) : Inv cs md (init cs md adm) := ⟨QInv.init cs md adm, by intro h; simp [init]⟩

theorem Inv.nodup (h : Inv cs md s) : s.q.Nodup := h.q.nodup
theorem Inv.csz (h : Inv cs md s) : s.base.cacheSize = cs := h.q.base.cs
theorem Inv.mdz (h : Inv cs md s) : s.base.objMd = md := h.q.base.md

theorem Inv.look (h : Inv cs md s) {id : ObjId} (hm : id ∈ s.q) : ∃ o, s.base.lookup id = some o := (h.q.mem_iff id).1 hm

theorem inv_frame (hi : Inv cs md s) {s' : State} (ht : s'.base.tbl = s.base.tbl) (ho : s'.base.occ = s.base.occ) (hn : s'.base.nObj = s.base.nObj)
    (hc : s'.base.cacheSize = s.base.cacheSize) (hm : s'.base.objMd = s.base.objMd) (hq : s'.q = s.q) (hh : s'.hand = s.hand) : Inv cs md s' := by
  obtain ⟨⟨⟨⟨i1, i2, i3, i4, i5⟩, i6, i7⟩, i8⟩, i9⟩ := hi
  simp only [State.qs] at *
  refine ⟨⟨⟨⟨?_, ?_, ?_, ?_, ?_⟩, ?_, ?_⟩, ?_⟩, ?_⟩ <;> simp only [State.qs, ht, ho, hn, hc, hm, hq, hh, Base.cached] <;> assumption

theorem find_miss {r : Req} {u : Bool} (h : s.base.lookup r.id = none) : find s r u = .ok (false, s) := by
  simp [find, findBase_miss h]

theorem find_false (r : Req) : find s r false = .ok ((s.base.lookup r.id).isSome, s) := by
  simp [find, findBase_false]

theorem find_hit (hi : Inv cs md s) {r : Req} {o : Obj Unit} (h : s.base.lookup r.id = some o) :
    ∃ s', find s r true = .ok (true, s') ∧ Inv cs md s' ∧ s'.missing = s.missing ∧ s'.base.cached = s.base.cached ∧
      view s' = { view s with objs := touched r (view s).objs } := by
  have hc := s.base.cached_modify r.id (touch r) (fun _ => rfl) (fun _ => rfl)
  refine ⟨{ s with base := s.base.modify r.id (touch r) }, by simp [find, findBase_hit h],
      ⟨QInv.touchOnly (s := s.qs) r.id (touch r) hi.q (fun _ => rfl) (fun _ => rfl), hi.hand⟩, rfl, hc, ?_⟩
  simp only [view, touched_view]
  rfl

theorem due_eq (hi : Inv cs md s) (o : Obj Unit) : due T s o.miscNext = isDue T cs s.base.nReq s.nMiss (entOf o) := by
  simp only [due, isDue, entOf, hi.csz]
  rfl

theorem walk_eq (hi : Inv cs md s) (l : List ObjId) (hl : ∀ id ∈ l, id ∈ s.q) :
    walk T s l = .ok (((viewOf entOf s.base l).find? (fun x => !isDue T cs s.base.nReq s.nMiss x)).map Entry.id) := by
  induction l with
  | nil => rfl
  | cons id l ih =>
    obtain ⟨o, ho⟩ := hi.look (hl id (by simp))
    rw [viewOf_cons ho]
    simp only [walk, ho]
    rw [due_eq hi o, List.find?_cons]
    cases h : isDue T cs s.base.nReq s.nMiss (entOf o) with
    | true => simp only [if_true, Bool.not_true]; exact ih (fun i hi => hl i (by simp [hi]))
    | false =>
      have hid : (entOf o).id = id := (lookup_some_mem ho).2
      simp [hid]

theorem from_view {b : Base Unit} (h : ObjId) (l : List ObjId) (hl : ∀ id ∈ l, ∃ o, b.lookup id = some o) :
    viewOf entOf b (l.dropWhile (fun x => decide (x ≠ h))) = from_ h (viewOf entOf b l) := by
  unfold from_
  induction l with
  | nil => rfl
  | cons a l ih =>
    obtain ⟨o, ho⟩ := hl a (by simp)
    have hid : (entOf o).id = a := (lookup_some_mem ho).2
    rw [viewOf_cons ho, List.dropWhile_cons, List.dropWhile_cons, hid]
    split
    · exact ih (fun i hi => hl i (by simp [hi]))
    · rw [viewOf_cons ho]

theorem victim_eq (hi : Inv cs md s) : victim T s = .ok (Dated.victim (isDue T cs s.base.nReq s.nMiss) (view s).objs s.hand) := by
  have hall : ∀ id ∈ s.q.reverse, ∃ o, s.base.lookup id = some o := fun id h => hi.look (by simpa using h)
  have hrev := walk_eq (T := T) hi s.q.reverse (by simp)
  have hah : walk T s (ahead s) = .ok (((match s.hand with
      | none => (view s).objs
      | some h => from_ h (view s).objs).find? (fun x => !isDue T cs s.base.nReq s.nMiss x)).map Entry.id) := by
    unfold ahead
    cases hh : s.hand with
    | none => exact hrev
    | some h =>
      have := walk_eq (T := T) hi (Sieve.fromHand s.q h) (fun id hid => by simpa using (List.dropWhile_sublist _).subset hid)
      simp only
      rw [this]
      unfold Sieve.fromHand
      rw [from_view h _ hall]
      rfl
  unfold victim Dated.victim
  rw [hah]
  simp only [Res.bind_ok]
  cases hf : (match s.hand with
      | none => (view s).objs
      | some h => from_ h (view s).objs).find? (fun x => !isDue T cs s.base.nReq s.nMiss x) with
  | some x => simp
  | none =>
    simp only [Option.map_none]
    rw [hrev]
    simp only [Res.bind_ok]
    cases hf2 : (viewOf entOf s.base s.q.reverse).find? (fun x => !isDue T cs s.base.nReq s.nMiss x) with
    | some x => simp [view, hf2]
    | none => simp [view, hf2]

theorem newer_eq (hi : Inv cs md s) {v : ObjId} (hv : v ∈ s.q) :
    newer v (view s).objs = Sieve.prevOf s.q v ∧ (∀ h, Sieve.prevOf s.q v = some h → h ∈ s.q.erase v) := by
  have hall : ∀ id ∈ s.q.reverse, ∃ o, s.base.lookup id = some o := fun id h => hi.look (by simpa using h)
  obtain ⟨A, B, hs⟩ := List.append_of_mem (show v ∈ s.q.reverse by simpa using hv)
  have hn := hi.nodup
  obtain ⟨ha, hb⟩ := Sieve.split_notMem hs hn
  have hp := Sieve.prevOf_rev hs hn
  obtain ⟨o, ho⟩ := hi.look hv
  rw [hp]
  constructor
  · unfold newer
    simp only [view]
    rw [← from_view v _ hall, hs, Sieve.dropWhile_split ha, viewOf_cons ho, List.tail_cons]
    cases B with
    | nil => rfl
    | cons x B =>
      obtain ⟨o', ho'⟩ := hall x (by rw [hs]; simp)
      rw [viewOf_cons ho']
      simp [entOf, (lookup_some_mem ho').2]
  · intro h hh
    rw [hn.mem_erase_iff]
    have hmB : h ∈ B := List.mem_of_head? hh
    refine ⟨fun e => hb (e ▸ hmB), ?_⟩
    rw [← List.mem_reverse, hs]
    simp [hmB]

theorem victim_mem (hi : Inv cs md s) {v : ObjId} (h : Dated.victim (isDue T cs s.base.nReq s.nMiss) (view s).objs s.hand = some v) : v ∈ s.q := by
  have hids : (view s).objs.map Entry.id = s.q.reverse := ids_view (fun id h => hi.look (by simpa using h))
  have hmem : ∀ x ∈ (view s).objs, x.id ∈ s.q := by
    intro x hx
    rw [← List.mem_reverse, ← hids]
    exact List.mem_map_of_mem hx
  unfold Dated.victim at h
  simp only at h
  split at h
  · rename_i x hx
    cases h
    have hm := List.mem_of_find?_eq_some hx
    refine hmem x ?_
    revert hm
    cases s.hand with
    | none => exact id
    | some h => exact fun hm => (List.dropWhile_sublist _).subset hm
  · split at h
    · rename_i x hx
      cases h
      exact hmem x (List.mem_of_find?_eq_some hx)
    · exact hi.hand v h

theorem evict_spec (hi : Inv cs md s) :
    (sieveEvict (isDue T cs s.base.nReq s.nMiss) (view s) = none ∧ evict T s = .error .nullDeref) ∨
    ∃ s' v, evict T s = .ok s' ∧ Inv cs md s' ∧ s'.missing = s.missing ∧ sieveEvict (isDue T cs s.base.nReq s.nMiss) (view s) = some (view s') ∧
      s.base.cached.Perm (v :: s'.base.cached) ∧ s'.base.nReq = s.base.nReq ∧ s'.nMiss = s.nMiss := by
  have hv := victim_eq (T := T) hi
  unfold sieveEvict
  have he : (view s).hand = s.hand := rfl
  rw [he]
  cases hvic : Dated.victim (isDue T cs s.base.nReq s.nMiss) (view s).objs s.hand with
  | none =>
    rw [hvic] at hv
    exact .inl ⟨rfl, by simp [evict, hv]⟩
  | some v =>
    right
    rw [hvic] at hv
    have hm := victim_mem hi hvic
    obtain ⟨o, ho⟩ := hi.look hm
    obtain ⟨b', k1, k2, k3, k4, k5, k6, k7⟩ := hi.q.base.remove ho
    have k1' : s.base.removeObjBase v = .ok b' := k1
    have k6' : b'.adm = s.base.adm := k6
    have k7' : b'.nReq = s.base.nReq := k7
    obtain ⟨n1, n2⟩ := newer_eq hi hm
    refine ⟨{ s with base := b', q := s.q.erase v, hand := Sieve.prevOf s.q v }, _, ?_, ⟨⟨k2, hi.q.erase_perm (lookup_some_mem ho).2 k4⟩, n2⟩, rfl, ?_, k5, k7', rfl⟩
    · simp [evict, hv, qRemove, hm, Base.evictBase, k1']
    · simp only [view, k6', k7']
      rw [filterOut_view (b := s.base) hi.nodup k3, ← n1]
      rfl

theorem canInsert_eq (s : State) (r : Req) : canInsert s r =
    if admitsBase s.base r then (true, { s with base := { s.base with adm := (s.base.adm.admit r).2 }, missing := true })
    else (false, { s with base := { s.base with adm := (s.base.adm.admit r).2 }, nMiss := s.nMiss + 1 }) := by
  unfold canInsert
  rw [canInsertDefault_eq]
  cases h : admitsBase s.base r <;> simp

theorem holds_eq (hi : Inv cs md s) (id : ObjId) : Dated.holds (view s).objs id = (s.base.lookup id).isSome := hi.q.holds_view id

theorem len_eq (hi : Inv cs md s) : (view s).objs.length = s.base.tbl.length := by
  have h1 : (view s).objs.length = s.q.length := hi.q.len_view
  have := hi.q.q.length_eq
  simp only [State.qs, List.length_map] at this
  omega

theorem tbl_nil (hi : Inv cs md s) : (view s).objs = [] ↔ s.base.tbl = [] := by
  rw [← List.length_eq_zero_iff, ← List.length_eq_zero_iff, len_eq hi]

theorem must_iff (hi : Inv cs md s) (r : Req) : (algo T).mustEvict s r = !decide (bytes md (contents (view s).objs) + r.size + md ≤ cs) := by
  have hb : (bytes md (contents (view s).objs) : Int) = s.base.occ := hi.q.bytes_view
  unfold Algo.mustEvict
  show decide (s.base.occ + (r.size : Int) + (s.base.objMd : Int) > (s.base.cacheSize : Int)) = _
  rw [hi.mdz, hi.csz, ← hb, ← decide_not]
  congr 1
  simp only [gt_iff_lt, Nat.not_le, eq_iff_iff]
  omega

theorem loop_spec (r : Req) (hfit : r.size + md ≤ cs) : ∀ n s, Inv cs md s → s.base.tbl.length ≤ n →
    (sieveSweep (isDue T cs s.base.nReq s.nMiss) (fun l => decide (bytes md (contents l) + r.size + md ≤ cs)) n (view s) = none ∧
      (algo T).evictLoop r n s = .error .nullDeref) ∨
    ∃ s', (algo T).evictLoop r n s = .ok s' ∧ Inv cs md s' ∧ s'.missing = s.missing ∧ (algo T).mustEvict s' r = false ∧
      sieveSweep (isDue T cs s.base.nReq s.nMiss) (fun l => decide (bytes md (contents l) + r.size + md ≤ cs)) n (view s) = some (view s') ∧
      s'.base.nReq = s.base.nReq ∧ s'.nMiss = s.nMiss ∧ s'.base.adm = s.base.adm ∧ s'.base.cached.Subperm s.base.cached := by
  intro n
  induction n with
  | zero =>
    intro s hi hlen
    have hm := must_iff (T := T) hi r
    have h0 : (view s).objs = [] := by rw [← List.length_eq_zero_iff, len_eq hi]; omega
    have hd : decide (bytes md (contents (view s).objs) + r.size + md ≤ cs) = true := by
      rw [h0]; simpa [contents, bytes] using hfit
    unfold sieveSweep Algo.evictLoop
    rw [hd] at hm ⊢
    exact .inr ⟨s, by simp [hm], hi, rfl, by simp [hm], by simp, rfl, rfl, rfl, List.Subperm.refl _⟩
  | succ n ih =>
    intro s hi hlen
    have hm := must_iff (T := T) hi r
    unfold sieveSweep Algo.evictLoop
    cases hd : decide (bytes md (contents (view s).objs) + r.size + md ≤ cs) with
    | true =>
      rw [hd] at hm
      exact .inr ⟨s, by simp [hm], hi, rfl, by simp [hm], by simp, rfl, rfl, rfl, List.Subperm.refl _⟩
    | false =>
      rw [hd] at hm
      rcases evict_spec (T := T) hi with ⟨h1, h2⟩ | ⟨s1, v, h1, h2, h3, h4, h5, h6, h7⟩
      · have hstep : (algo T).evict s r = .error .nullDeref := h2
        exact .inl ⟨by simp [h1], by simp [hm, hstep]⟩
      · have hstep : (algo T).evict s r = .ok s1 := h1
        have hadm : s1.base.adm = s.base.adm := by
          unfold sieveEvict at h4
          split at h4
          · cases h4
          · injection h4 with h4
            have := congrArg (fun t => t.toQueue.adm) h4
            exact this.symm
        have hl1 : s1.base.tbl.length ≤ n := by
          have := h5.length_eq
          simp only [Base.cached, List.length_map, List.length_cons] at this
          omega
        have hsub : s1.base.cached.Subperm s.base.cached := (List.Sublist.subperm (List.sublist_cons_self _ _)).trans h5.symm.subperm
        rcases ih s1 h2 hl1 with ⟨g1, g2⟩ | ⟨s', g1, g2, g3, g4, g5, g6, g7, g8, g9⟩
        · rw [h6, h7] at g1
          exact .inl ⟨by simpa [h4] using g1, by simp [hm, hstep, g2]⟩
        · rw [h6, h7] at g5
          exact .inr ⟨s', by simp [hm, hstep, g1], g2, g3.trans h3, g4, by simpa [h4] using g5, g6.trans h6, g7.trans h7, g8.trans hadm, g9.trans hsub⟩

theorem insert_spec (hi : Inv cs md s) (r : Req) (hn : s.base.lookup r.id = none) (hroom : (algo T).mustEvict s r = false) (hsz : SizeOk md r) :
    ∃ s', insert T s r = .ok s' ∧ Inv cs md s' ∧ s'.missing = false ∧
      s'.base.cached = (if isDue T cs s.base.nReq s.nMiss (Entry.ofReq r) then (r.id, r.size % u32) :: s.base.cached else s.base.cached) ∧
      (view s').objs = (if isDue T cs s.base.nReq s.nMiss (Entry.ofReq r) then (view s).objs ++ [Entry.ofReq r] else (view s).objs) ∧
      s'.nMiss = (if s.missing then s.nMiss + 1 else s.nMiss) ∧ s'.hand = s.hand ∧ s'.base.nReq = s.base.nReq ∧ s'.base.adm = s.base.adm := by
  have hr : s.base.occ + r.size + md ≤ cs := by
    unfold Algo.mustEvict at hroom
    have : decide (s.base.occ + (r.size : Int) + (s.base.objMd : Int) > (s.base.cacheSize : Int)) = false := hroom
    rw [hi.mdz, hi.csz] at this
    simpa using this
  have hd : due T s r.next = isDue T cs s.base.nReq s.nMiss (Entry.ofReq r) := by
    simp only [due, isDue, Entry.ofReq, hi.csz]
    rfl
  unfold insert
  rw [hd]
  cases isDue T cs s.base.nReq s.nMiss (Entry.ofReq r) with
  | true =>
    obtain ⟨x, k1, k2, k3, k4⟩ := hi.q.insert () r hn hr hsz
    have hnq : r.id ∉ s.q := hi.q.notMem_of_lookup hn
    have k3' : x.base = s.base.insertBase () r := k3
    have k4' : x.q = r.id :: s.q := k4
    have k1' : s.qs.insert () r = .ok x := k1
    refine ⟨{ s with base := x.base, q := x.q, nMiss := if s.missing then s.nMiss + 1 else s.nMiss, missing := false }, by simp [k1'], ⟨k2, ?_⟩, rfl, ?_, ?_, rfl, rfl, ?_, ?_⟩
    · intro h hh
      show h ∈ x.q
      rw [k4']
      exact List.mem_cons_of_mem _ (hi.hand h hh)
    · simp [k3', cached_insertBase]
    · simp only [view, k3', k4', insert_view () r hnq, if_true]
    · simp only [k3']; rfl
    · simp only [k3']; rfl
  | false =>
    exact ⟨{ s with nMiss := if s.missing then s.nMiss + 1 else s.nMiss, missing := false }, by simp, inv_frame hi rfl rfl rfl rfl rfl rfl rfl,
      rfl, by simp, by simp [view], rfl, rfl, rfl, rfl⟩

theorem remove_hit (hi : Inv cs md s) {id : ObjId} {o : Obj Unit} (hl : s.base.lookup id = some o) :
    ∃ s', remove s id = .ok (true, s') ∧ Inv cs md s' ∧ s'.missing = s.missing ∧ s.base.cached.Perm ((o.id, o.size) :: s'.base.cached) ∧
      view s' = { view s with objs := (view s).objs.filter (fun x => x.id ≠ id), hand := if (view s).hand = some id then newer id (view s).objs else (view s).hand } := by
  have hm : id ∈ s.q := hi.q.mem_of_lookup hl
  obtain ⟨b', k1, k2, k3, k4, k5, k6, k7⟩ := hi.q.base.remove hl
  have k1' : s.base.removeObjBase id = .ok b' := k1
  have k6' : b'.adm = s.base.adm := k6
  have k7' : b'.nReq = s.base.nReq := k7
  obtain ⟨n1, n2⟩ := newer_eq hi hm
  refine ⟨{ s with base := b', q := s.q.erase id, hand := if s.hand = some id then Sieve.prevOf s.q id else s.hand }, ?_,
    ⟨⟨k2, hi.q.erase_perm (lookup_some_mem hl).2 k4⟩, ?_⟩, rfl, k5, ?_⟩
  · simp [remove, hl, qRemove, hm, k1']
  · intro h hh
    simp only at hh
    split at hh
    · exact n2 h hh
    · rename_i hne
      show h ∈ s.q.erase id
      rw [hi.nodup.mem_erase_iff]
      exact ⟨fun e => hne (by rw [hh, e]), hi.hand h hh⟩
  · rw [n1]
    simp only [view, k6', k7']
    rw [filterOut_view (b := s.base) hi.nodup k3]
    rfl

theorem remove_miss {id : ObjId} (hl : s.base.lookup id = none) : remove s id = .ok (false, s) := by
  simp [remove, hl]

theorem view_ext {s : State} {t : Dated.Sieve} (h1 : (view s).objs = t.objs) (h2 : s.base.nReq = t.reqs) (h3 : s.nMiss = t.misses)
    (h4 : s.base.adm = t.adm) (h5 : s.hand = t.hand) : view s = t := by
  obtain ⟨⟨a, b, c, d⟩, e⟩ := t
  simp only at h1 h2 h3 h4 h5
  subst h2 h3 h4 h5 h1
  rfl

theorem get_spec (hi : Inv cs md s) (hmiss : s.missing = false) (r : Req) (hsz : SizeOk md r) :
    (sget T cs md (view s) r = none ∧ (algo T).get s r = .error .nullDeref) ∨
    ∃ b s', (algo T).get s r = .ok (b, s') ∧ (Inv cs md s' ∧ s'.missing = false) ∧ sget T cs md (view s) r = some (b, view s') := by
  have hbump : Inv cs md ((algo T).bump s) := inv_frame hi rfl rfl rfl rfl rfl rfl rfl
  unfold sget
  rw [holds_eq hi]
  cases hl : s.base.lookup r.id with
  | some o =>
    right
    obtain ⟨s', k1, k2, k3, k4, k5⟩ := find_hit hbump (r := r) (o := o) hl
    have : (algo T).find ((algo T).bump s) r true = .ok (true, s') := k1
    refine ⟨true, s', get_hit this, ⟨k2, k3.trans hmiss⟩, ?_⟩
    rw [k5]
    rfl
  | none =>
    have hf : (algo T).find ((algo T).bump s) r true = .ok (false, (algo T).bump s) := find_miss hl
    have hc := canInsert_eq ((algo T).bump s) r
    have had : admitsBase ((algo T).bump s).base r = ((s.base.adm.admit r).1 && decide (r.size + md ≤ cs)) := by
      have : admitsBase ((algo T).bump s).base r = ((s.base.adm.admit r).1 && decide (r.size + s.base.objMd ≤ s.base.cacheSize)) := rfl
      rw [this, hi.mdz, hi.csz]
    simp only [Option.isSome_none, Bool.false_eq_true, if_false]
    by_cases hadm : (s.base.adm.admit r).1 = true ∧ r.size + md ≤ cs
    · have e : ((view s).adm.admit r).1 = true ∧ r.size + md ≤ cs := hadm
      rw [if_pos e]
      rw [had] at hc
      simp only [hadm.1, hadm.2, decide_true, Bool.and_self, if_true] at hc
      generalize hs2 : ({ (algo T).bump s with base := { ((algo T).bump s).base with adm := (((algo T).bump s).base.adm.admit r).2 }, missing := true } : State) = s2 at hc
      have hi2 : Inv cs md s2 := by rw [← hs2]; exact inv_frame hbump rfl rfl rfl rfl rfl rfl rfl
      have hl2 : s2.base.lookup r.id = none := by rw [← hs2]; exact hl
      have hm2 : s2.missing = true := by rw [← hs2]
      have hfuel : (algo T).fuel s2 = (view s).objs.length := by rw [len_eq hi, ← hs2]; rfl
      have hlen : s2.base.tbl.length ≤ (view s).objs.length := by rw [len_eq hi, ← hs2]; exact Nat.le_refl _
      have ev2 : s2.base.nReq = (view s).reqs + 1 := by rw [← hs2]; rfl
      have ev3 : s2.nMiss = (view s).misses := by rw [← hs2]; rfl
      have ev4 : s2.base.adm = ((view s).adm.admit r).2 := by rw [← hs2]; rfl
      have hv2 : view s2 = { view s with reqs := (view s).reqs + 1, adm := ((view s).adm.admit r).2 } := by rw [← hs2]; rfl
      have hcan : (algo T).canInsert ((algo T).bump s) r = (true, s2) := hc
      have key : ∀ (due : Entry → Bool) (room : List Entry → Bool) n (t : Dated.Sieve) (q : Nat) (a : Adm),
          sieveSweep due room n { t with reqs := q, adm := a } = (sieveSweep due room n t).map (fun t' => { t' with reqs := q, adm := a }) := by
        intro due room n
        induction n with
        | zero => intro t q a; unfold sieveSweep; split <;> rfl
        | succ n ih =>
          intro t q a
          unfold sieveSweep
          by_cases hr : room t.objs = true
          · simp [hr]
          · simp only [hr, Bool.false_eq_true, if_false, sieveEvict]
            cases Dated.victim due t.objs t.hand with
            | none => rfl
            | some v => exact ih { t with objs := t.objs.filter (fun x => x.id ≠ v), hand := newer v t.objs } q a
      have hk := key (isDue T cs ((view s).reqs + 1) (view s).misses) (fun l => decide (bytes md (contents l) + r.size + md ≤ cs))
        (view s).objs.length (view s) ((view s).reqs + 1) (((view s).adm.admit r).2)
      rcases loop_spec (T := T) r hadm.2 (view s).objs.length s2 hi2 hlen with ⟨g1, g2⟩ | ⟨s3, g1, g2, g3, g4, g5, g6, g7, g8, g9⟩
      · left
        rw [hv2, ev2, ev3, hk, Option.map_eq_none_iff] at g1
        refine ⟨by rw [g1], ?_⟩
        unfold Algo.get
        simp [hf, hcan, hfuel, g2]
      · right
        rw [hv2, ev2, ev3, hk, Option.map_eq_some_iff] at g5
        obtain ⟨t', t1, t2⟩ := g5
        have hl3 : s3.base.lookup r.id = none := by
          rw [lookup_none_iff'] at hl2 ⊢
          exact notMem_ids_of_subperm g9 hl2
        obtain ⟨s4, m1, m2, m3, m4, m5, m6, m7, m8, m9⟩ := insert_spec (T := T) g2 r hl3 g4 hsz
        refine ⟨false, s4, get_accept hf hcan (by rw [hfuel]; exact g1) m1, ⟨m2, m3⟩, ?_⟩
        rw [t1]
        have ho : (view s3).objs = t'.objs := by rw [← t2]
        have hh : s3.hand = t'.hand := by
          have : (view s3).hand = t'.hand := by rw [← t2]
          exact this
        simp only [Option.some.injEq, Prod.mk.injEq, true_and]
        symm
        refine view_ext ?_ ?_ ?_ ?_ ?_
        · rw [m5, g6, g7, ev2, ev3, ho]
        · rw [m8, g6, ev2]
        · rw [m6, g3, hm2, g7, ev3]; rfl
        · rw [m9, g8, ev4]
        · rw [m7, hh]
    · have e : ¬(((view s).adm.admit r).1 = true ∧ r.size + md ≤ cs) := hadm
      rw [if_neg e]
      have hf' : admitsBase ((algo T).bump s).base r = false := by
        rw [had]
        by_cases ha : (s.base.adm.admit r).1 = true
        · simp only [ha, true_and] at hadm; simp [ha, hadm]
        · simp [ha]
      rw [hf'] at hc
      right
      refine ⟨false, _, get_reject hf hc, ⟨inv_frame hi rfl rfl rfl rfl rfl rfl rfl, hmiss⟩, rfl⟩

theorem stepIs (T : Thresh) (cs md : Nat) :
    StepIs (algo T) (fun s => Inv cs md s ∧ s.missing = false) (Calls {} (SizeOk md)) (Dated.sieve T cs md) view .nullDeref := by
  intro s op ⟨hi, hmiss⟩ hop
  have gone : ∀ id, s.base.lookup id = none → ∀ x ∈ (view s).objs, x.id ≠ id := by
    intro id hl x hx
    have hh := holds_eq hi id
    rw [hl] at hh
    simp only [Dated.holds, Option.isSome_none, decide_eq_false_iff_not, List.mem_map, not_exists, not_and] at hh
    exact hh x hx
  cases op with
  | get r => exact get_spec hi hmiss r hop
  | find r u =>
    right
    simp only [Dated.sieve, holds_eq hi]
    cases hl : s.base.lookup r.id with
    | none =>
      refine ⟨false, s, find_miss hl, ⟨hi, hmiss⟩, ?_⟩
      have : touched r (view s).objs = (view s).objs := by
        unfold touched
        conv => rhs; rw [← List.map_id (view s).objs]
        apply List.map_congr_left
        intro x hx
        simp [gone _ hl x hx]
      rw [this]
      simp
    | some o =>
      cases u with
      | false => exact ⟨true, s, (find_false (s := s) r).trans (by rw [hl]; rfl), ⟨hi, hmiss⟩, by simp⟩
      | true =>
        obtain ⟨s', k1, k2, k3, k4, k5⟩ := find_hit hi hl
        exact ⟨true, s', k1, ⟨k2, k3.trans hmiss⟩, by rw [k5]; simp⟩
  | remove id =>
    right
    simp only [Dated.sieve, holds_eq hi]
    cases hl : s.base.lookup id with
    | none =>
      refine ⟨false, s, remove_miss hl, ⟨hi, hmiss⟩, ?_⟩
      have : (view s).objs.filter (fun x => decide (x.id ≠ id)) = (view s).objs := by
        rw [List.filter_eq_self]
        intro x hx
        simpa using gone id hl x hx
      have hh : (view s).hand ≠ some id := by
        intro h
        have := hi.hand id h
        exact hi.q.notMem_of_lookup hl this
      rw [this, if_neg hh]
      rfl
    | some o =>
      obtain ⟨s', k1, k2, k3, k4, k5⟩ := remove_hit hi hl
      exact ⟨true, s', k1, ⟨k2, k3.trans hmiss⟩, by rw [k5]; rfl⟩
  | evict r =>
    have hn : s.base.nObj = (s.base.tbl.length : Int) := hi.q.base.inv.nObj_eq
    simp only [Dated.sieve]
    by_cases ht : s.base.tbl = []
    · refine .inr ⟨false, s, ?_, ⟨hi, hmiss⟩, by simp [(tbl_nil hi).2 ht]⟩
      have : (algo T).nObj s = 0 := by show s.base.nObj = 0; rw [hn, ht]; rfl
      simp [Algo.step, this]
    · have hpos : (algo T).nObj s > 0 := by
        show s.base.nObj > 0
        rw [hn]
        have : s.base.tbl.length ≠ 0 := by simpa using ht
        omega
      rw [if_neg (by rw [tbl_nil hi]; exact ht)]
      rcases evict_spec (T := T) hi with ⟨k1, k2⟩ | ⟨s', v, k1, k2, k3, k4, k5, k6, k7⟩
      · left
        have k2' : (algo T).evict s r = .error .nullDeref := k2
        have k1' : sieveEvict (isDue T cs (view s).reqs (view s).misses) (view s) = none := k1
        exact ⟨by rw [k1']; rfl, by simp [Algo.step, hpos, k2']⟩
      · have k1' : (algo T).evict s r = .ok s' := k1
        have k4' : sieveEvict (isDue T cs (view s).reqs (view s).misses) (view s) = some (view s') := k4
        exact .inr ⟨true, s', by simp only [Algo.step, hpos, if_true, k1', Res.bind_ok], ⟨k2, k3.trans hmiss⟩, by rw [k4']; rfl⟩
  | insert r =>
    right
    simp only [Dated.sieve, holds_eq hi]
    have hf : (algo T).find s r false = .ok ((s.base.lookup r.id).isSome, s) := find_false r
    have hm := must_iff (T := T) hi r
    cases hl : s.base.lookup r.id with
    | some o =>
      rw [hl] at hf
      exact ⟨false, s, by simp [Algo.step, hf], ⟨hi, hmiss⟩, by simp⟩
    | none =>
      rw [hl] at hf
      by_cases hroom : bytes md (contents (view s).objs) + r.size + md ≤ cs
      · have hme : (algo T).mustEvict s r = false := by rw [hm]; simp [hroom]
        obtain ⟨s', m1, m2, m3, m4, m5, m6, m7, m8, m9⟩ := insert_spec (T := T) hi r hl hme hop.2
        refine ⟨true, s', ?_, ⟨m2, m3⟩, ?_⟩
        · have m1' : (algo T).insert s r = .ok s' := m1
          simp [Algo.step, hf, hme, m1']
        · simp only [Option.isSome_none, hroom, and_self, if_true, Option.some.injEq, Prod.mk.injEq, true_and]
          symm
          refine view_ext m5 m8 ?_ m9 m7
          rw [m6, hmiss]; rfl
      · have hme : (algo T).mustEvict s r = true := by rw [hm]; simp [hroom]
        exact ⟨false, s, by simp [Algo.step, hf, hme], ⟨hi, hmiss⟩, by simp [hroom]⟩

theorem cached_iff {id : ObjId} : decide (id ∈ s.base.cached.ids) = (s.base.lookup id).isSome := lookup_isSome_iff.symm

theorem cond (T : Thresh) (cs md : Nat) : Cond (algo T) (fun s => s.base.cached) (Inv cs md) cs md {} (SizeOk md) where
  csz := fun h => h.csz
  mdz := fun h => h.mdz
  nodup := fun h => by rw [Contents.ids, map_id_eq]; exact h.q.base.inv.nodup
  occ := fun {s} h => by
    have := h.q.base.inv.occ_eq
    rw [h.q.base.md] at this
    exact this
  nObj := fun {s} h => by
    have : s.base.nObj = (s.base.tbl.length : Int) := h.q.base.inv.nObj_eq
    show s.base.nObj = _
    simpa [Base.cached] using this
  cap := fun {s} h => by
    have := h.q.base.inv.cap
    rw [h.q.base.cs] at this
    exact this
  bump := fun h => ⟨inv_frame h rfl rfl rfl rfl rfl rfl rfl, rfl⟩
  can := fun {s} r h => by
    have e : (algo T).canInsert s r = canInsert s r := rfl
    rw [e, canInsert_eq]
    split
    · exact ⟨inv_frame h rfl rfl rfl rfl rfl rfl rfl, rfl⟩
    · exact ⟨inv_frame h rfl rfl rfl rfl rfl rfl rfl, rfl⟩
  findF := fun _ {s b s'} r h hf => by
    have e : (algo T).find s r false = find s r false := rfl
    rw [e, find_false] at hf
    cases hf
    exact ⟨cached_iff.symm, rfl⟩
  findT := fun {s b s'} r h hf => by
    have e : (algo T).find s r true = find s r true := rfl
    rw [e] at hf
    cases hl : s.base.lookup r.id with
    | none =>
      rw [find_miss hl] at hf
      cases hf
      exact ⟨by rw [cached_iff, hl]; rfl, h, List.Subperm.refl _⟩
    | some o =>
      obtain ⟨s1, k1, k2, k3, k4, k5⟩ := find_hit h hl
      rw [k1] at hf
      cases hf
      exact ⟨by rw [cached_iff, hl]; rfl, k2, by rw [k4]⟩
  evict := fun {s s'} r h hf => by
    have e : (algo T).evict s r = evict T s := rfl
    rw [e] at hf
    rcases evict_spec (T := T) h with ⟨k1, k2⟩ | ⟨s1, v, k1, k2, k3, k4, k5, k6, k7⟩
    · rw [k2] at hf; cases hf
    · rw [k1] at hf
      cases hf
      exact ⟨k2, (List.Sublist.subperm (List.sublist_cons_self _ _)).trans k5.symm.subperm⟩
  insert := fun {s s'} r h hok hn hme hf => by
    have e : (algo T).insert s r = insert T s r := rfl
    rw [e] at hf
    obtain ⟨s1, k1, k2, k3, k4, _⟩ := insert_spec (T := T) h r (lookup_none_iff'.2 hn) hme hok
    rw [k1] at hf
    cases hf
    refine ⟨k2, ?_⟩
    rw [k4]
    split
    · exact List.Subperm.refl _
    · exact List.Sublist.subperm (List.sublist_cons_self _ _)
  remove := fun _ {s b s'} id h hf => by
    have e : (algo T).remove s id = remove s id := rfl
    rw [e] at hf
    cases hl : s.base.lookup id with
    | none =>
      rw [remove_miss hl] at hf
      cases hf
      refine ⟨by rw [cached_iff, hl]; rfl, h, ?_⟩
      rw [filter_ids_eq (lookup_none_iff'.1 hl)]
    | some o =>
      obtain ⟨s1, k1, k2, k3, k4, k5⟩ := remove_hit h hl
      rw [k1] at hf
      cases hf
      refine ⟨by rw [cached_iff, hl]; rfl, k2, ?_⟩
      have hn : s.base.cached.ids.Nodup := by rw [Contents.ids, map_id_eq]; exact h.q.base.inv.nodup
      have := filter_cons_self hn k4
      rw [(lookup_some_mem hl).2] at this
      exact this

end Verif.SieveBelady
