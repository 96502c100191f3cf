import Verif.Algo.BeladyQueue
import Verif.Proof.Dated
/-!
# FIFO_Belady and LRU_Belady are the reference queue
-/

namespace Verif.BeladyQueue
open Verif Spec Spec.Dated

/-- The state seen by the specification. -/
def view (s : State) : Dated.Queue := ⟨viewOf entOf s.base s.q.reverse, s.base.nReq, s.nMiss, s.base.adm⟩

def Inv (cs md : Nat) (s : State) : Prop := QInv cs md s.qs

variable {cs md : Nat} {T : Thresh} {promote : Bool} {s : State}

theorem inv_init (cs md : Nat) (adm : Adm) : Inv cs md (init cs md adm) := QInv.init cs md adm

theorem find_miss {r : Req} {u : Bool} (h : s.base.lookup r.id = none) : find promote s r u = .ok (false, s) := by
  simp [find, findBase_miss h]

theorem find_false (r : Req) : find promote s r false = .ok ((s.base.lookup r.id).isSome, s) := by
  unfold find
  rw [findBase_false]
  cases h : s.base.lookup r.id <;> simp

theorem find_hit (hi : Inv cs md s) {r : Req} {o : Obj Unit} (h : s.base.lookup r.id = some o) :
    ∃ s', find promote s r true = .ok (true, s') ∧ Inv cs md s' ∧ s'.missing = s.missing ∧ s'.base.cached = s.base.cached ∧
      view s' = { view s with objs := if promote then toNewest r.id (touched r (view s).objs) else touched r (view s).objs } := by
  have hm : r.id ∈ s.q := QInv.mem_of_lookup hi h
  have hc := s.base.cached_modify r.id (touch r) (fun _ => rfl) (fun _ => rfl)
  cases promote with
  | false =>
    refine ⟨{ s with base := s.base.modify r.id (touch r) }, by simp [find, findBase_hit h],
      QInv.touchOnly (s := s.qs) r.id (touch r) hi (fun _ => rfl) (fun _ => rfl), rfl, hc, ?_⟩
    simp only [view, touched_view]
    rfl
  | true =>
    refine ⟨{ s with base := s.base.modify r.id (touch r), q := r.id :: s.q.erase r.id }, by simp [find, findBase_hit h, qMoveToHead, hm],
      QInv.touchFront (s := s.qs) r hi h, rfl, hc, ?_⟩
    simp only [view, if_true]
    have hnd : s.q.Nodup := QInv.nodup hi
    rw [toNewest_view hnd hm, touched_view]
    rfl

theorem evict_spec (hi : Inv cs md s) (hne : s.base.tbl ≠ []) :
    ∃ s', evict T s = .ok s' ∧ Inv cs md s' ∧ s'.missing = s.missing ∧
      view s' = { view s with objs := pass (isDue T cs s.base.nReq s.nMiss) (view s).objs } ∧
      (s'.base = s.base ∨ ∃ v, s.base.cached.Perm (v :: s'.base.cached)) := by
  have hi' : QInv cs md s.qs := hi
  obtain ⟨s1, o, h1, h2, h3, h4, h5, h6, h7⟩ := hi'.evictTail_spec hne
  have hq : s.q = s1.q ++ [o.id] := h4
  have hl : s.base.lookup o.id = some o := h3
  have hlast : qTail s.q = .ok o.id := by simp [qTail, hq]
  have hnd : s.q.Nodup := hi'.nodup
  have hm : o.id ∈ s.q := by rw [hq]; simp
  have herase : s.q.erase o.id = s1.q := by
    have hnd' : (s1.q ++ [o.id]).Nodup := hq ▸ hnd
    rw [hq, List.erase_append_right _ (by rw [List.nodup_append] at hnd'; exact fun hx => hnd'.2.2 _ hx _ (by simp) rfl)]
    simp
  have hv : (view s).objs = entOf o :: viewOf entOf s.base s1.q.reverse := by
    simp only [view, hq, List.reverse_append, List.reverse_cons, List.reverse_nil, List.nil_append, List.singleton_append]
    exact viewOf_cons hl
  have hd : due T s o.miscNext = isDue T cs s.base.nReq s.nMiss (entOf o) := by
    have : s.base.cacheSize = cs := hi'.base.cs
    simp only [due, isDue, entOf, this]
    rfl
  rw [hv, pass, ← hd]
  cases hdue : due T s o.miscNext with
  | true =>
    refine ⟨{ s with q := o.id :: s.q.erase o.id }, by simp [evict, hlast, hl, hdue, qMoveToHead, hm], ⟨hi'.base, ?_⟩, rfl, ?_, .inl rfl⟩
    · exact (List.perm_cons_erase hm).symm.trans hi'.q
    · simp only [view, herase, if_true, List.reverse_cons, viewOf_append, viewOf_cons hl, viewOf_nil]
  | false =>
    obtain ⟨b', k1, k2, k3, k4, k5, k6, k7⟩ := hi'.base.remove hl
    have k1' : s.base.removeObjBase o.id = .ok b' := k1
    refine ⟨{ s with base := b', q := s1.q }, ?_, ⟨k2, ?_⟩, rfl, ?_, .inr ⟨_, k5⟩⟩
    · simp [evict, hlast, hl, hdue, qRemove, hm, herase, Base.evictBase, k1']
    · show s1.q.Perm _
      rw [← herase]
      exact hi'.erase_perm rfl k4
    · have hnm : o.id ∉ s1.q := by
        rw [← herase, hnd.mem_erase_iff]; simp
      have k6' : b'.adm = s.base.adm := k6
      have k7' : b'.nReq = s.base.nReq := k7
      simp only [view, Bool.false_eq_true, if_false, k6', k7']
      rw [viewOf_erase (b := s.base) k3 (by simpa using hnm)]

theorem canInsert_eq (s : State) (r : Req) : canInsert s r =
    if admitsBase s.base r then (true, { s with base := { s.base with adm := (s.base.adm.admit r).2 }, missing := true })
    else (false, { s with base := { s.base with adm := (s.base.adm.admit r).2 }, nMiss := s.nMiss + 1 }) := by
  unfold canInsert
  rw [canInsertDefault_eq]
  cases h : admitsBase s.base r <;> simp

theorem inv_frame (hi : Inv cs md s) {s' : State} (ht : s'.base.tbl = s.base.tbl) (ho : s'.base.occ = s.base.occ) (hn : s'.base.nObj = s.base.nObj)
    (hc : s'.base.cacheSize = s.base.cacheSize) (hm : s'.base.objMd = s.base.objMd) (hq : s'.q = s.q) : Inv cs md s' := by
  have hi' : QInv cs md s.qs := hi
  obtain ⟨⟨⟨i1, i2, i3, i4, i5⟩, i6, i7⟩, i8⟩ := hi'
  simp only [State.qs] at *
  refine ⟨⟨⟨?_, ?_, ?_, ?_, ?_⟩, ?_, ?_⟩, ?_⟩ <;> simp only [State.qs, ht, ho, hn, hc, hm, hq, Base.cached] <;> assumption

theorem must_iff (hi : Inv cs md s) (r : Req) : (algo T promote).mustEvict s r = !decide (bytes md (contents (view s).objs) + r.size + md ≤ cs) := by
  have hi' : QInv cs md s.qs := hi
  have hb := hi'.bytes_view
  have h1 : s.base.objMd = md := hi'.base.md
  have h2 : s.base.cacheSize = cs := hi'.base.cs
  have hb' : (bytes md (contents (view s).objs) : Int) = s.base.occ := hb
  unfold Algo.mustEvict
  show decide (s.base.occ + (r.size : Int) + (s.base.objMd : Int) > (s.base.cacheSize : Int)) = _
  rw [h1, h2, ← hb', ← decide_not]
  congr 1
  simp only [gt_iff_lt, Nat.not_le, eq_iff_iff]
  omega

theorem loop_spec (r : Req) (hfit : r.size + md ≤ cs) : ∀ n s, Inv cs md s →
    (sweep (isDue T cs s.base.nReq s.nMiss) (fun l => decide (bytes md (contents l) + r.size + md ≤ cs)) n (view s).objs = none ∧
      (algo T promote).evictLoop r n s = .error .diverge) ∨
    ∃ s', (algo T promote).evictLoop r n s = .ok s' ∧ Inv cs md s' ∧ s'.missing = s.missing ∧ (algo T promote).mustEvict s' r = false ∧
      sweep (isDue T cs s.base.nReq s.nMiss) (fun l => decide (bytes md (contents l) + r.size + md ≤ cs)) n (view s).objs = some (view s').objs ∧
      view s' = { view s with objs := (view s').objs } ∧ s'.base.cached.Subperm s.base.cached := by
  intro n
  induction n with
  | zero =>
    intro s hi
    have hm := must_iff (T := T) (promote := promote) hi r
    unfold sweep Algo.evictLoop
    cases hd : decide (bytes md (contents (view s).objs) + r.size + md ≤ cs) with
    | true =>
      rw [hd] at hm
      exact .inr ⟨s, by simp [hm], hi, rfl, by simp [hm], by simp, rfl, List.Subperm.refl _⟩
    | false =>
      rw [hd] at hm
      exact .inl ⟨by simp, by simp [hm]⟩
  | succ n ih =>
    intro s hi
    have hm := must_iff (T := T) (promote := promote) hi r
    unfold sweep Algo.evictLoop
    cases hd : decide (bytes md (contents (view s).objs) + r.size + md ≤ cs) with
    | true =>
      rw [hd] at hm
      exact .inr ⟨s, by simp [hm], hi, rfl, by simp [hm], by simp, rfl, List.Subperm.refl _⟩
    | false =>
      rw [hd] at hm
      have hne : s.base.tbl ≠ [] := by
        intro h0
        have hi' : QInv cs md s.qs := hi
        have hq : s.q = [] := by
          have := hi'.q.length_eq
          simp only [State.qs, h0, List.map_nil, List.length_nil] at this
          exact List.length_eq_zero_iff.1 this
        simp only [view, hq, List.reverse_nil, viewOf_nil, decide_eq_false_iff_not] at hd
        exact hd (by simpa [contents, bytes] using hfit)
      obtain ⟨s1, h1, h2, h3, h4, h5⟩ := evict_spec (T := T) hi hne
      have e1 : s1.base.nReq = s.base.nReq := congrArg Queue.reqs h4
      have e2 : s1.nMiss = s.nMiss := congrArg Queue.misses h4
      have e3 : (view s1).objs = pass (isDue T cs s.base.nReq s.nMiss) (view s).objs := congrArg Queue.objs h4
      have hsub : s1.base.cached.Subperm s.base.cached := by
        rcases h5 with h5 | ⟨v, h5⟩
        · rw [h5]
        · exact (List.Sublist.subperm (List.sublist_cons_self _ _)).trans h5.symm.subperm
      have hstep : (algo T promote).evict s r = .ok s1 := h1
      rcases ih s1 h2 with ⟨g1, g2⟩ | ⟨s', g1, g2, g3, g4, g5, g6, g7⟩
      · rw [e1, e2, e3] at g1
        exact .inl ⟨by simpa using g1, by simp [hm, hstep, g2]⟩
      · rw [e1, e2, e3] at g5
        refine .inr ⟨s', by simp [hm, hstep, g1], g2, g3.trans h3, g4, by simpa using g5, ?_, g7.trans hsub⟩
        rw [g6, h4]

theorem insert_spec (hi : Inv cs md s) (r : Req) (hn : s.base.lookup r.id = none) (hroom : (algo T promote).mustEvict s r = false) (hsz : SizeOk md r) :
    ∃ s', insert s r = .ok s' ∧ Inv cs md s' ∧ s'.missing = false ∧ s'.base.cached = (r.id, r.size % u32) :: s.base.cached ∧
      view s' = { view s with objs := (view s).objs ++ [Entry.ofReq r], misses := if s.missing then s.nMiss + 1 else s.nMiss } := by
  have hi' : QInv cs md s.qs := hi
  have h1 : s.base.objMd = md := hi'.base.md
  have h2 : s.base.cacheSize = cs := hi'.base.cs
  have hr : s.base.occ + r.size + md ≤ cs := by
    unfold Algo.mustEvict at hroom
    have : decide (s.base.occ + (r.size : Int) + (s.base.objMd : Int) > (s.base.cacheSize : Int)) = false := hroom
    rw [h1, h2] at this
    simpa using this
  obtain ⟨x, k1, k2, k3, k4⟩ := hi'.insert () r hn hr hsz
  have hnq : r.id ∉ s.q := hi'.notMem_of_lookup hn
  have k3' : x.base = s.base.insertBase () r := k3
  have k4' : x.q = r.id :: s.q := k4
  have k1' : s.qs.insert () r = .ok x := k1
  refine ⟨⟨x.base, x.q, if s.missing then s.nMiss + 1 else s.nMiss, false⟩, by simp [insert, k1'], k2, rfl, ?_, ?_⟩
  · simp only [k3', cached_insertBase]
  · simp only [view, k3', k4', insert_view () r hnq]
    rfl

theorem remove_hit (hi : Inv cs md s) {id : ObjId} {o : Obj Unit} (hl : s.base.lookup id = some o) :
    ∃ s', remove s id = .ok (true, s') ∧ Inv cs md s' ∧ s'.missing = s.missing ∧ s.base.cached.Perm ((o.id, o.size) :: s'.base.cached) ∧
      view s' = { view s with objs := (view s).objs.filter (fun x => x.id ≠ id) } := by
  have hi' : QInv cs md s.qs := hi
  have hm : id ∈ s.q := hi'.mem_of_lookup hl
  obtain ⟨b', k1, k2, k3, k4, k5, k6, k7⟩ := hi'.base.remove hl
  have k1' : s.base.removeObjBase id = .ok b' := k1
  have k6' : b'.adm = s.base.adm := k6
  have k7' : b'.nReq = s.base.nReq := k7
  refine ⟨{ s with base := b', q := s.q.erase id }, ?_, ⟨k2, hi'.erase_perm (lookup_some_mem hl).2 k4⟩, rfl, k5, ?_⟩
  · simp [remove, QState.remove, State.qs, hl, qRemove, hm, k1']
  · simp only [view, k6', k7']
    have hnd : s.q.Nodup := hi'.nodup
    rw [filterOut_view (b := s.base) hnd k3]

theorem remove_miss {id : ObjId} (hl : s.base.lookup id = none) : remove s id = .ok (false, s) := by
  simp [remove, QState.remove, State.qs, hl]

theorem holds_eq (hi : Inv cs md s) (id : ObjId) : Dated.holds (view s).objs id = (s.base.lookup id).isSome := QInv.holds_view hi id

theorem len_eq (hi : Inv cs md s) : (view s).objs.length = s.q.length := QInv.len_view hi

theorem tbl_nil (hi : Inv cs md s) : (view s).objs = [] ↔ s.base.tbl = [] := by
  have hi' : QInv cs md s.qs := hi
  have := hi'.q.length_eq
  have hl := len_eq hi
  simp only [State.qs, List.length_map] at this
  rw [← List.length_eq_zero_iff, ← List.length_eq_zero_iff]
  omega

theorem get_spec (hi : Inv cs md s) (hmiss : s.missing = false) (r : Req) (hsz : SizeOk md r) :
    (qget T promote cs md (view s) r = none ∧ (algo T promote).get s r = .error .diverge) ∨
    ∃ b s', (algo T promote).get s r = .ok (b, s') ∧ (Inv cs md s' ∧ s'.missing = false) ∧ qget T promote cs md (view s) r = some (b, view s') := by
  have hbump : Inv cs md ((algo T promote).bump s) := inv_frame hi rfl rfl rfl rfl rfl rfl
  have hi' : QInv cs md s.qs := hi
  have h1 : s.base.objMd = md := hi'.base.md
  have h2 : s.base.cacheSize = cs := hi'.base.cs
  unfold qget
  rw [holds_eq hi]
  cases hl : s.base.lookup r.id with
  | some o =>
    right
    obtain ⟨s', k1, k2, k3, k4, k5⟩ := find_hit (promote := promote) hbump (r := r) (o := o) hl
    have : (algo T promote).find ((algo T promote).bump s) r true = .ok (true, s') := k1
    refine ⟨true, s', get_hit this, ⟨k2, k3.trans hmiss⟩, ?_⟩
    rw [k5]
    rfl
  | none =>
    have hf : (algo T promote).find ((algo T promote).bump s) r true = .ok (false, (algo T promote).bump s) := find_miss hl
    have hc := canInsert_eq ((algo T promote).bump s) r
    have had : admitsBase ((algo T promote).bump s).base r = ((s.base.adm.admit r).1 && decide (r.size + md ≤ cs)) := by
      have : admitsBase ((algo T promote).bump s).base r = ((s.base.adm.admit r).1 && decide (r.size + s.base.objMd ≤ s.base.cacheSize)) := rfl
      rw [this, h1, h2]
    simp only [Option.isSome_none, Bool.false_eq_true, if_false]
    by_cases hadm : (s.base.adm.admit r).1 = true ∧ r.size + md ≤ cs
    · have e : ((view s).adm.admit r).1 = true ∧ r.size + md ≤ cs := hadm
      rw [if_pos e]
      rw [had] at hc
      simp only [hadm.1, hadm.2, decide_true, Bool.and_self, if_true] at hc
      generalize hs2 : ({ (algo T promote).bump s with base := { ((algo T promote).bump s).base with adm := (((algo T promote).bump s).base.adm.admit r).2 }, missing := true } : State) = s2 at hc
      have hi2 : Inv cs md s2 := by rw [← hs2]; exact inv_frame hbump rfl rfl rfl rfl rfl rfl
      have hv2 : view s2 = ⟨(view s).objs, (view s).reqs + 1, (view s).misses, ((view s).adm.admit r).2⟩ := by rw [← hs2]; rfl
      have hl2 : s2.base.lookup r.id = none := by rw [← hs2]; exact hl
      have hm2 : s2.missing = true := by rw [← hs2]
      have hfuel : (algo T promote).fuel s2 = (view s).objs.length := by rw [len_eq hi, ← hs2]; rfl
      have ev1 : (view s2).objs = (view s).objs := by rw [hv2]
      have ev2 : s2.base.nReq = (view s).reqs + 1 := by rw [← hs2]; rfl
      have ev3 : s2.nMiss = (view s).misses := by rw [← hs2]; rfl
      have hcan : (algo T promote).canInsert ((algo T promote).bump s) r = (true, s2) := hc
      rcases loop_spec (T := T) (promote := promote) r hadm.2 (view s).objs.length s2 hi2 with ⟨g1, g2⟩ | ⟨s3, g1, g2, g3, g4, g5, g6, g7⟩
      · left
        rw [ev1, ev2, ev3] at g1
        refine ⟨by rw [g1], ?_⟩
        unfold Algo.get
        simp [hf, hcan, hfuel, g2]
      · right
        rw [ev1, ev2, ev3] at g5
        have hl3 : s3.base.lookup r.id = none := by
          rw [lookup_none_iff'] at hl2 ⊢
          exact notMem_ids_of_subperm g7 hl2
        obtain ⟨s4, m1, m2, m3, m4, m5⟩ := insert_spec (T := T) (promote := promote) g2 r hl3 g4 hsz
        refine ⟨false, s4, get_accept hf hcan (by rw [hfuel]; exact g1) m1, ⟨m2, m3⟩, ?_⟩
        have ev4 : s3.nMiss = s.nMiss := by
          have := congrArg Queue.misses g6
          rw [hv2] at this
          exact this
        rw [g5, m5, g3, hm2, g6, hv2, ev4]
        rfl
    · have e : ¬(((view s).adm.admit r).1 = true ∧ r.size + md ≤ cs) := hadm
      rw [if_neg e]
      have hf' : admitsBase ((algo T promote).bump s).base r = false := by
        rw [had]
        by_cases ha : (s.base.adm.admit r).1 = true
        · simp only [ha, true_and] at hadm; simp [ha, hadm]
        · simp [ha]
      rw [hf'] at hc
      right
      refine ⟨false, _, get_reject hf hc, ⟨inv_frame hi rfl rfl rfl rfl rfl rfl, hmiss⟩, rfl⟩

theorem stepIs (T : Thresh) (promote : Bool) (cs md : Nat) :
    StepIs (algo T promote) (fun s => Inv cs md s ∧ s.missing = false) (Calls {} (SizeOk md)) (Dated.queue T promote cs md) view .diverge := by
  intro s op ⟨hi, hmiss⟩ hop
  cases op with
  | get r => exact get_spec hi hmiss r hop
  | find r u =>
    right
    simp only [Dated.queue, holds_eq hi]
    cases hl : s.base.lookup r.id with
    | none =>
      exact ⟨false, s, find_miss hl, ⟨hi, hmiss⟩, by simp⟩
    | some o =>
      cases u with
      | false => exact ⟨true, s, (find_false (promote := promote) (s := s) r).trans (by rw [hl]; rfl), ⟨hi, hmiss⟩, by simp⟩
      | true =>
        obtain ⟨s', k1, k2, k3, k4, k5⟩ := find_hit (promote := promote) hi hl
        exact ⟨true, s', k1, ⟨k2, k3.trans hmiss⟩, by rw [k5]; simp⟩
  | remove id =>
    right
    simp only [Dated.queue, holds_eq hi]
    cases hl : s.base.lookup id with
    | none =>
      refine ⟨false, s, remove_miss hl, ⟨hi, hmiss⟩, ?_⟩
      have : (view s).objs.filter (fun x => decide (x.id ≠ id)) = (view s).objs := by
        rw [List.filter_eq_self]
        intro x hx
        have hh := holds_eq hi id
        rw [hl] at hh
        simp only [Dated.holds, Option.isSome_none, decide_eq_false_iff_not, List.mem_map, not_exists, not_and] at hh
        simpa using hh x hx
      rw [this]
      rfl
    | some o =>
      obtain ⟨s', k1, k2, k3, k4, k5⟩ := remove_hit hi hl
      exact ⟨true, s', k1, ⟨k2, k3.trans hmiss⟩, by rw [k5]; rfl⟩
  | evict r =>
    right
    have hi' : QInv cs md s.qs := hi
    have hn : s.base.nObj = (s.base.tbl.length : Int) := hi'.base.inv.nObj_eq
    simp only [Dated.queue]
    by_cases ht : s.base.tbl = []
    · refine ⟨false, s, ?_, ⟨hi, hmiss⟩, by simp [(tbl_nil hi).2 ht]⟩
      have : (algo T promote).nObj s = 0 := by show s.base.nObj = 0; rw [hn, ht]; rfl
      simp [Algo.step, this]
    · obtain ⟨s', k1, k2, k3, k4, k5⟩ := evict_spec (T := T) hi ht
      refine ⟨true, s', ?_, ⟨k2, k3.trans hmiss⟩, ?_⟩
      · have : (algo T promote).nObj s > 0 := by
          show s.base.nObj > 0
          rw [hn]
          have : s.base.tbl.length ≠ 0 := by simpa using ht
          omega
        have k1' : (algo T promote).evict s r = .ok s' := k1
        simp only [Algo.step, this, if_true, k1', Res.bind_ok]
      · rw [if_neg (by rw [tbl_nil hi]; exact ht), k4]
        rfl
  | insert r =>
    right
    simp only [Dated.queue, holds_eq hi]
    have hf : (algo T promote).find s r false = .ok ((s.base.lookup r.id).isSome, s) := find_false r
    have hm := must_iff (T := T) (promote := promote) hi r
    cases hl : s.base.lookup r.id with
    | some o =>
      rw [hl] at hf
      exact ⟨false, s, by simp [Algo.step, hf], ⟨hi, hmiss⟩, by simp⟩
    | none =>
      rw [hl] at hf
      by_cases hroom : bytes md (contents (view s).objs) + r.size + md ≤ cs
      · have hme : (algo T promote).mustEvict s r = false := by rw [hm]; simp [hroom]
        obtain ⟨s', m1, m2, m3, m4, m5⟩ := insert_spec (T := T) (promote := promote) hi r hl hme hop.2
        refine ⟨true, s', ?_, ⟨m2, m3⟩, ?_⟩
        · have m1' : (algo T promote).insert s r = .ok s' := m1
          simp [Algo.step, hf, hme, m1']
        · rw [m5, hmiss]
          simp [hroom]
          rfl
      · have hme : (algo T promote).mustEvict s r = true := by rw [hm]; simp [hroom]
        exact ⟨false, s, by simp [Algo.step, hf, hme], ⟨hi, hmiss⟩, by simp [hroom]⟩

/-- What is cached and its order. -/
def core (s : State) : Quiet Unit × List ObjId := (s.base.quiet, s.q)

theorem cached_iff {id : ObjId} : decide (id ∈ s.base.cached.ids) = (s.base.lookup id).isSome := lookup_isSome_iff.symm

theorem strong (T : Thresh) (promote : Bool) (cs md : Nat) :
    CondStrong (algo T promote) (fun s => s.base.cached) (Inv cs md) cs md {} (SizeOk md) (fun s r => admitsBase s.base r) core where
  csz := fun h => QInv.base h |>.cs
  mdz := fun h => QInv.base h |>.md
  nodup := fun h => by rw [Contents.ids, map_id_eq]; exact (QInv.base h).inv.nodup
  occ := fun {s} h => by
    have := (QInv.base h).inv.occ_eq
    rw [(QInv.base h).md] at this
    exact this
  nObj := fun {s} h => by
    have : s.base.nObj = (s.base.tbl.length : Int) := (QInv.base h).inv.nObj_eq
    show s.base.nObj = _
    simpa [Base.cached] using this
  cap := fun {s} h => by
    have := (QInv.base h).inv.cap
    rw [(QInv.base h).cs] at this
    exact this
  bump := fun h => ⟨inv_frame h rfl rfl rfl rfl rfl rfl, rfl⟩
  can := fun {s} r h => by
    have e : (algo T promote).canInsert s r = canInsert s r := rfl
    rw [e, canInsert_eq]
    split
    · exact ⟨inv_frame h rfl rfl rfl rfl rfl rfl, rfl⟩
    · exact ⟨inv_frame h rfl rfl rfl rfl rfl rfl, rfl⟩
  findF := fun _ {s b s'} r h hf => by
    have e : (algo T promote).find s r false = find promote s r false := rfl
    rw [e, find_false] at hf
    cases hf
    exact ⟨cached_iff.symm, rfl⟩
  findT := fun {s b s'} r h hf => by
    have e : (algo T promote).find s r true = find promote s r true := rfl
    rw [e] at hf
    cases hl : s.base.lookup r.id with
    | none =>
      rw [find_miss hl] at hf
      cases hf
      exact ⟨by rw [cached_iff, hl]; rfl, h, List.Subperm.refl _⟩
    | some o =>
      obtain ⟨s1, k1, k2, k3, k4, k5⟩ := find_hit (promote := promote) h hl
      rw [k1] at hf
      cases hf
      exact ⟨by rw [cached_iff, hl]; rfl, k2, by rw [k4]⟩
  evict := fun {s s'} r h hf => by
    have e : (algo T promote).evict s r = evict T s := rfl
    rw [e] at hf
    by_cases hne : s.base.tbl = []
    · have hq : s.q = [] := by
        have := (QInv.q h).length_eq
        simp only [State.qs, hne, List.map_nil, List.length_nil] at this
        exact List.length_eq_zero_iff.1 this
      simp [evict, qTail, hq] at hf
    · obtain ⟨s1, k1, k2, k3, k4, k5⟩ := evict_spec (T := T) h hne
      rw [k1] at hf
      cases hf
      refine ⟨k2, ?_⟩
      rcases k5 with k5 | ⟨v, k5⟩
      · rw [k5]
      · exact (List.Sublist.subperm (List.sublist_cons_self _ _)).trans k5.symm.subperm
  insert := fun {s s'} r h hok hn hme hf => by
    have e : (algo T promote).insert s r = insert s r := rfl
    rw [e] at hf
    obtain ⟨s1, k1, k2, k3, k4, k5⟩ := insert_spec (T := T) (promote := promote) h r (lookup_none_iff'.2 hn) hme hok
    rw [k1] at hf
    cases hf
    exact ⟨k2, by rw [k4]⟩
  remove := fun _ {s b s'} id h hf => by
    have e : (algo T promote).remove s id = remove s id := rfl
    rw [e] at hf
    cases hl : s.base.lookup id with
    | none =>
      rw [remove_miss hl] at hf
      cases hf
      refine ⟨by rw [cached_iff, hl]; rfl, h, ?_⟩
      rw [filter_ids_eq (lookup_none_iff'.1 hl)]
    | some o =>
      obtain ⟨s1, k1, k2, k3, k4, k5⟩ := remove_hit h hl
      rw [k1] at hf
      cases hf
      refine ⟨by rw [cached_iff, hl]; rfl, k2, ?_⟩
      have hn : s.base.cached.ids.Nodup := by rw [Contents.ids, map_id_eq]; exact (QInv.base h).inv.nodup
      have := filter_cons_self hn k4
      rw [(lookup_some_mem hl).2] at this
      exact this
  hitPerm := fun {s s'} r h hf => by
    have e : (algo T promote).find s r true = find promote s r true := rfl
    rw [e] at hf
    cases hl : s.base.lookup r.id with
    | none => rw [find_miss hl] at hf; cases hf
    | some o =>
      obtain ⟨s1, k1, k2, k3, k4, k5⟩ := find_hit (promote := promote) h hl
      rw [k1] at hf
      cases hf
      rw [k4]
  missQuiet := fun {s s'} r h hf => by
    have e : (algo T promote).find s r true = find promote s r true := rfl
    rw [e] at hf
    cases hl : s.base.lookup r.id with
    | none => rw [find_miss hl] at hf; cases hf; rfl
    | some o =>
      obtain ⟨s1, k1, k2, k3, k4, k5⟩ := find_hit (promote := promote) h hl
      rw [k1] at hf
      cases hf
  admitsEq := fun {s} r h => by
    have e : (algo T promote).canInsert ((algo T promote).bump s) r = canInsert ((algo T promote).bump s) r := rfl
    rw [e, canInsert_eq]
    have e2 : admitsBase ((algo T promote).bump s).base r = admitsBase s.base r := rfl
    rw [e2]
    cases admitsBase s.base r <;> rfl
  coreEq := fun {s} r h => by
    have e : (algo T promote).canInsert ((algo T promote).bump s) r = canInsert ((algo T promote).bump s) r := rfl
    rw [e, canInsert_eq]
    split <;> rfl
  evictAtMostOne := fun {s s'} r h hf => by
    have e : (algo T promote).evict s r = evict T s := rfl
    rw [e] at hf
    by_cases hne : s.base.tbl = []
    · have hq : s.q = [] := by
        have := (QInv.q h).length_eq
        simp only [State.qs, hne, List.map_nil, List.length_nil] at this
        exact List.length_eq_zero_iff.1 this
      simp [evict, qTail, hq] at hf
    · obtain ⟨s1, k1, k2, k3, k4, k5⟩ := evict_spec (T := T) h hne
      rw [k1] at hf
      cases hf
      rcases k5 with k5 | ⟨v, k5⟩
      · exact ⟨[], by simp, by rw [k5]; exact List.Perm.refl _⟩
      · exact ⟨[v], by simp, k5⟩
  insertPerm := fun {s s'} r h hok hn hme hf => by
    have e : (algo T promote).insert s r = insert s r := rfl
    rw [e] at hf
    obtain ⟨s1, k1, k2, k3, k4, k5⟩ := insert_spec (T := T) (promote := promote) h r (lookup_none_iff'.2 hn) hme hok
    rw [k1] at hf
    cases hf
    rw [k4]

/-- The eviction loop of a request that finds no room among the due objects never ends. -/
theorem forever (hi : Inv cs md s) (r : Req) (hfit : r.size + md ≤ cs)
    (h : ¬bytes md (contents ((view s).objs.filter (isDue T cs s.base.nReq s.nMiss))) + r.size + md ≤ cs) (n : Nat) :
    (algo T promote).evictLoop r n s = .error .diverge := by
  rcases loop_spec (T := T) (promote := promote) r hfit n s hi with ⟨_, h2⟩ | ⟨s', _, _, _, _, g5, _⟩
  · exact h2
  · rw [sweep_forever _ _ _ _ _ _ h] at g5
    cases g5

end Verif.BeladyQueue
