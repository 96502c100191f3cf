import Verif.Proof.ClockList
import Verif.Algo.LPARC
import Verif.Base.Medium
/-!
# LP_ARC follows adaptive replacement with lazy promotion
-/

namespace Verif.LPARC
open Verif Verif.Spec Verif.Spec.LazyARC
open Verif.ARC (Arith)
variable {R : Arith}

/-- the arithmetic on the target in the specification's terms -/
def aim (R : Arith) (cs : Nat) : Aim R.P where
  gt := fun n p => R.gt n p
  eq := fun n p => R.eq n p
  up := fun p x y => R.up p x y cs
  down := fun p x y => R.down p x y

def view (s : State R) : St R.P := ⟨Clock.view s.t1, Clock.view s.t2, s.b1.order, s.b2.order, s.p⟩

def cached (s : State R) : Contents := s.t1.base.cached ++ s.t2.base.cached

def all (t : St R.P) : Contents := ent t.t1 ++ (ent t.t2 ++ (t.b1 ++ t.b2))

structure Good (cs : Nat) (sz : ObjId → Nat) (t : St R.P) : Prop where
  nodup : (all t).ids.Nodup
  sized : ∀ x ∈ all t, x.2 = sz x.1 ∧ x.2 < u32
  cap : charge 0 (ent t.t1) + charge 0 (ent t.t2) ≤ cs

structure Rep (cs : Nat) (sz : ObjId → Nat) (s : State R) (t : St R.P) : Prop where
  csz : s.cacheSize = cs
  t1 : CC cs s.t1 t.t1
  t2 : CC cs s.t2 t.t2
  b1 : LL cs s.b1 t.b1
  b2 : LL cs s.b2 t.b2
  p : s.p = t.p
  good : Good cs sz t

def Inv (cs : Nat) (sz : ObjId → Nat) (s : State R) : Prop := Rep cs sz s (view s)

section
variable {cs : Nat} {sz : ObjId → Nat} {s : State R} {t t' : St R.P}

theorem size_eq (l : List Item) : LazyARC.size l = charge 0 (ent l) := bytes_eq_charge 0 (ent l)

theorem Rep.view (h : Rep cs sz s t) : view s = t := by
  cases t
  simp only [LPARC.view, h.t1.view, h.t2.view, h.b1.order, h.b2.order, h.p]

theorem Rep.inv (h : Rep cs sz s t) : Inv cs sz s := by unfold Inv; rw [h.view]; exact h

theorem inv_init (cs : Nat) (sz : ObjId → Nat) : Inv cs sz (init cs : State R) :=
  ⟨rfl, CC.init cs, CC.init cs, LL.init cs, LL.init cs, rfl, List.nodup_nil, (by intro x h; cases h), Nat.zero_le _⟩

/-! ### what is on the lists -/

theorem Good.sub (h : Good cs sz t) (hs : (all t').Subperm (all t)) (hc : charge 0 (ent t'.t1) + charge 0 (ent t'.t2) ≤ cs) : Good cs sz t' := by
  refine ⟨?_, fun x hx => h.sized x (hs.subset hx), hc⟩
  obtain ⟨l, hp, hl⟩ := hs
  exact (hp.map Prod.fst).nodup_iff.1 ((hl.map Prod.fst).nodup h.nodup)

theorem Good.add (h : Good cs sz t) {x : ObjId × Nat} (hn : x.1 ∉ (all t).ids) (hx : x.2 = sz x.1 ∧ x.2 < u32) (hp : (all t').Perm (x :: all t))
    (hc : charge 0 (ent t'.t1) + charge 0 (ent t'.t2) ≤ cs) : Good cs sz t' := by
  refine ⟨(hp.map Prod.fst).nodup_iff.2 ?_, ?_, hc⟩
  · rw [List.map_cons, List.nodup_cons]; exact ⟨hn, h.nodup⟩
  · intro y hy
    rcases List.mem_cons.1 (hp.subset hy) with rfl | hy
    · exact hx
    · exact h.sized y hy

theorem mem_all (t : St R.P) (id : ObjId) : id ∈ (all t).ids ↔ id ∈ (ent t.t1).ids ∨ id ∈ (ent t.t2).ids ∨ id ∈ t.b1.ids ∨ id ∈ t.b2.ids := by
  simp only [all, ids_append, List.mem_append]

theorem all_ids (t : St R.P) : (all t).ids = (ent t.t1).ids ++ ((ent t.t2).ids ++ (t.b1.ids ++ t.b2.ids)) := by simp only [all, ids_append]

theorem Good.onT1 (h : Good cs sz t) {id : ObjId} (hi : id ∈ (ent t.t1).ids) : id ∉ (ent t.t2).ids ∧ id ∉ t.b1.ids ∧ id ∉ t.b2.ids := by
  have := h.nodup
  rw [all_ids, List.nodup_append] at this
  have h2 := this.2.2 id hi
  simp only [List.mem_append] at h2
  exact ⟨fun hh => h2 id (Or.inl hh) rfl, fun hh => h2 id (Or.inr (Or.inl hh)) rfl, fun hh => h2 id (Or.inr (Or.inr hh)) rfl⟩

theorem Good.onT2 (h : Good cs sz t) {id : ObjId} (hi : id ∈ (ent t.t2).ids) : id ∉ (ent t.t1).ids ∧ id ∉ t.b1.ids ∧ id ∉ t.b2.ids := by
  have := h.nodup
  rw [all_ids, List.nodup_append, List.nodup_append] at this
  have h2 := this.2.1.2.2 id hi
  simp only [List.mem_append] at h2
  exact ⟨fun hh => (h.onT1 hh).1 hi, fun hh => h2 id (Or.inl hh) rfl, fun hh => h2 id (Or.inr hh) rfl⟩

theorem Good.onB1 (h : Good cs sz t) {id : ObjId} (hi : id ∈ t.b1.ids) : id ∉ (ent t.t1).ids ∧ id ∉ (ent t.t2).ids ∧ id ∉ t.b2.ids := by
  have := h.nodup
  rw [all_ids, List.nodup_append, List.nodup_append, List.nodup_append] at this
  exact ⟨fun hh => (h.onT1 hh).2.1 hi, fun hh => (h.onT2 hh).2.1 hi, fun hh => this.2.1.2.1.2.2 id hi id hh rfl⟩

theorem Good.onB2 (h : Good cs sz t) {id : ObjId} (hi : id ∈ t.b2.ids) : id ∉ (ent t.t1).ids ∧ id ∉ (ent t.t2).ids ∧ id ∉ t.b1.ids :=
  ⟨fun hh => (h.onT1 hh).2.2 hi, fun hh => (h.onT2 hh).2.2 hi, fun hh => (h.onB1 hh).2.2 hi⟩

theorem Rep.cached (h : Rep cs sz s t) : (contents t).Perm (LPARC.cached s) := h.t1.perm.append h.t2.perm

theorem Rep.mem (h : Rep cs sz s t) (id : ObjId) : id ∈ (LPARC.cached s).ids ↔ id ∈ (ent t.t1).ids ∨ id ∈ (ent t.t2).ids := by
  rw [← (h.cached.map Prod.fst).mem_iff]
  simp only [contents, List.map_append, List.mem_append]

theorem Rep.frame (h : Rep cs sz s t) (n : Nat) (i1 i2 : Bool) (v : Int) : Rep cs sz { s with nReq := n, inB1 := i1, inB2 := i2, vtime := v } t :=
  ⟨h.csz, h.t1, h.t2, h.b1, h.b2, h.p, h.good⟩

/-! ### find -/

theorem Rep.find_false (h : Rep cs sz s t) (r : Req) : find s r false = .ok (decide (r.id ∈ (LPARC.cached s).ids), s) := by
  simp only [find, h.t1.peek r, h.t2.peek r, Res.bind_ok, if_true]
  congr 2
  rw [← Bool.decide_or, decide_eq_decide, h.mem]

theorem Rep.find_none (h : Rep cs sz s t) (r : Req) (hn : r.id ∉ (all t).ids) : find s r true = .ok (false, s) := by
  rw [mem_all] at hn
  simp only [not_or] at hn
  simp only [find, h.t1.peek r, h.t2.peek r, h.b1.peek r, h.b2.peek r, Res.bind_ok, decide_eq_false hn.1, decide_eq_false hn.2.1, decide_eq_false hn.2.2.1,
    decide_eq_false hn.2.2.2, Bool.or_false, and_self, if_true, reduceCtorEq, if_false]

theorem sub_filter {l : Contents} {a b : Contents} (q : ObjId × Nat → Bool) : (a ++ (l.filter q ++ b)).Subperm (a ++ (l ++ b)) :=
  ((List.Sublist.refl a).append (List.filter_sublist.append (List.Sublist.refl b))).subperm

theorem Rep.find_b1 (h : Rep cs sz s t) (r : Req) (hb : r.id ∈ t.b1.ids) :
    ∃ s', find s r true = .ok (false, s') ∧
      Rep cs sz s' { t with p := (aim R cs).up t.p (bytes 0 t.b2) (bytes 0 t.b1), b1 := t.b1.filter (fun x => x.1 ≠ r.id) } ∧
      s'.nReq = s.nReq ∧ s'.inB1 = true ∧ s'.inB2 = false ∧ s'.vtime = s.nReq := by
  have hn := h.good.onB1 hb
  obtain ⟨g, h1, h2⟩ := h.b1.remove r.id
  rw [decide_eq_true hb] at h1
  refine ⟨{ s with p := R.up s.p s.b2.base.occ s.b1.base.occ s.cacheSize, b1 := g, inB1 := true, inB2 := false, vtime := s.nReq }, ?_, ?_, rfl, rfl, rfl, rfl⟩
  · simp only [find, h.t1.peek r, h.t2.peek r, h.b1.peek r, h.b2.peek r, Res.bind_ok, decide_eq_false hn.1, decide_eq_false hn.2.1, decide_eq_false hn.2.2,
      decide_eq_true hb, Bool.or_false, reduceCtorEq, if_false, and_false, if_true, ghostHit, h1]
  · refine ⟨h.csz, h.t1, h.t2, h2, h.b2, ?_, h.good.sub ?_ h.good.cap⟩
    · show R.up s.p s.b2.base.occ s.b1.base.occ s.cacheSize = R.up t.p (bytes 0 t.b2 : Nat) (bytes 0 t.b1 : Nat) cs
      rw [h.p, h.csz, h.b1.occ, h.b2.occ, bytes_eq_charge, bytes_eq_charge]
    · show (ent t.t1 ++ (ent t.t2 ++ (t.b1.filter _ ++ t.b2))).Subperm (ent t.t1 ++ (ent t.t2 ++ (t.b1 ++ t.b2)))
      rw [← List.append_assoc, ← List.append_assoc (ent t.t1)]
      exact sub_filter _

theorem Rep.find_b2 (h : Rep cs sz s t) (r : Req) (hb : r.id ∈ t.b2.ids) :
    ∃ s', find s r true = .ok (false, s') ∧
      Rep cs sz s' { t with p := (aim R cs).down t.p (bytes 0 t.b1) (bytes 0 t.b2), b2 := t.b2.filter (fun x => x.1 ≠ r.id) } ∧
      s'.nReq = s.nReq ∧ s'.inB1 = false ∧ s'.inB2 = true ∧ s'.vtime = s.nReq := by
  have hn := h.good.onB2 hb
  obtain ⟨g, h1, h2⟩ := h.b2.remove r.id
  rw [decide_eq_true hb] at h1
  refine ⟨{ s with p := R.down s.p s.b1.base.occ s.b2.base.occ, b2 := g, inB1 := false, inB2 := true, vtime := s.nReq }, ?_, ?_, rfl, rfl, rfl, rfl⟩
  · simp only [find, h.t1.peek r, h.t2.peek r, h.b1.peek r, h.b2.peek r, Res.bind_ok, decide_eq_false hn.1, decide_eq_false hn.2.1, decide_eq_false hn.2.2,
      decide_eq_true hb, Bool.or_false, Bool.false_or, reduceCtorEq, if_false, and_false, if_true, ghostHit, h1, Bool.false_eq_true]
  · refine ⟨h.csz, h.t1, h.t2, h.b1, h2, ?_, h.good.sub ?_ h.good.cap⟩
    · show R.down s.p s.b1.base.occ s.b2.base.occ = R.down t.p (bytes 0 t.b1 : Nat) (bytes 0 t.b2 : Nat)
      rw [h.p, h.b1.occ, h.b2.occ, bytes_eq_charge, bytes_eq_charge]
    · show (ent t.t1 ++ (ent t.t2 ++ (t.b1 ++ t.b2.filter _))).Subperm (ent t.t1 ++ (ent t.t2 ++ (t.b1 ++ t.b2)))
      exact ((List.Sublist.refl _).append ((List.Sublist.refl _).append ((List.Sublist.refl _).append List.filter_sublist))).subperm

theorem filter_perm {l : Contents} (hnd : l.ids.Nodup) {x : ObjId × Nat} (hx : x ∈ l) : l.Perm (x :: l.filter (fun y => y.1 ≠ x.1)) := by
  induction l with
  | nil => cases hx
  | cons y l ih =>
    have hnd' : y.1 ∉ Contents.ids l ∧ (Contents.ids l).Nodup := by simpa [Contents.ids] using hnd
    rcases List.mem_cons.1 hx with rfl | hx
    · rw [List.filter_cons, if_neg (by simp)]
      refine List.Perm.cons _ ?_
      rw [List.filter_eq_self.2]
      intro y hy
      simp only [ne_eq, decide_not, Bool.not_eq_eq_eq_not, Bool.not_true, decide_eq_false_iff_not]
      intro e
      exact hnd'.1 (by rw [← e]; exact List.mem_map_of_mem hy)
    · have hne : y.1 ≠ x.1 := fun e => hnd'.1 (by rw [e]; exact List.mem_map_of_mem hx)
      rw [List.filter_cons, if_pos (by simpa using hne)]
      exact ((ih hnd'.2 hx).cons y).trans (List.Perm.swap _ _ _)

theorem Rep.find_t1 (h : Rep cs sz s t) (r : Req) (hok : Fits cs sz r) (hb : r.id ∈ (ent t.t1).ids) :
    ∃ s', find s r true = .ok (true, s') ∧
      Rep cs sz s' { t with t1 := t.t1.filter (fun x => x.id ≠ r.id), t2 := t.t2 ++ [⟨r.id, r.size, 0⟩] } ∧
      s'.nReq = s.nReq ∧ s'.inB1 = false ∧ s'.inB2 = false ∧ (contents t).Perm (LPARC.cached s') := by
  have hn := h.good.onT1 hb
  obtain ⟨x, hx, hxe⟩ := List.mem_map.1 hb
  have hxs := h.good.sized x (List.mem_append_left _ hx)
  have ex : x = (r.id, r.size) := by
    apply Prod.ext
    · exact hxe
    · rw [hxs.1, hxe, hok.1]
  obtain ⟨a, h1, h2⟩ := h.t1.remove r.id
  rw [decide_eq_true hb] at h1
  have hp : (ent t.t1).Perm ((r.id, r.size) :: ent (t.t1.filter (fun y => y.id ≠ r.id))) := by
    rw [CC.ids_filter]
    have := filter_perm h.t1.nodup hx
    rw [ex] at this
    exact this
  have hc := charge_perm (md := 0) hp
  have hcap := h.good.cap
  simp only [charge] at hc
  obtain ⟨b, h3, h4⟩ := h.t2.get r hn.1 (by omega)
  rw [Nat.mod_eq_of_lt hok.2.2] at h4
  have hall : (contents t).Perm (ent (t.t1.filter (fun y => y.id ≠ r.id)) ++ ent (t.t2 ++ [⟨r.id, r.size, 0⟩])) := by
    refine (hp.append_right _).trans ?_
    rw [List.cons_append]
    refine List.perm_middle.symm.trans (List.Perm.append_left _ ?_)
    simp only [ent, List.map_append, List.map_cons, List.map_nil]
    exact (List.perm_append_singleton _ _).symm
  have hR : Rep cs sz { s with t1 := a, t2 := b, inB1 := false, inB2 := false } { t with t1 := t.t1.filter (fun x => x.id ≠ r.id), t2 := t.t2 ++ [⟨r.id, r.size, 0⟩] } := by
    refine ⟨h.csz, h2, h4, h.b1, h.b2, h.p, h.good.sub ?_ ?_⟩
    · show (ent (t.t1.filter _) ++ (ent (t.t2 ++ _) ++ (t.b1 ++ t.b2))).Subperm (ent t.t1 ++ (ent t.t2 ++ (t.b1 ++ t.b2)))
      rw [← List.append_assoc, ← List.append_assoc (ent t.t1)]
      exact (hall.symm.append_right _).subperm
    · have := charge_perm (md := 0) hall
      rw [contents, charge_app, charge_app] at this
      show charge 0 (ent (t.t1.filter _)) + charge 0 (ent (t.t2 ++ _)) ≤ cs
      omega
  refine ⟨{ s with t1 := a, t2 := b, inB1 := false, inB2 := false }, ?_, hR, rfl, rfl, rfl, hall.trans hR.cached⟩
  simp only [find, h.t1.peek r, h.t2.peek r, h.b1.peek r, h.b2.peek r, Res.bind_ok, decide_eq_false hn.1, decide_eq_false hn.2.1, decide_eq_false hn.2.2,
    decide_eq_true hb, Bool.or_false, reduceCtorEq, if_false, false_and, if_true, hit, h1, h3]

theorem onHit_ent (l : List Item) (r : Req) : ent ((clock 1).onHit l r) = ent l := by
  simp only [ent, clock, List.map_map]
  apply List.map_congr_left
  intro x _
  simp only [Function.comp_apply]
  split <;> rfl

theorem Rep.find_t2 (h : Rep cs sz s t) (r : Req) (hb : r.id ∈ (ent t.t2).ids) :
    ∃ s', find s r true = .ok (true, s') ∧ Rep cs sz s' { t with t2 := (clock 1).onHit t.t2 r } ∧
      s'.nReq = s.nReq ∧ s'.inB1 = false ∧ s'.inB2 = false ∧ (contents t).Perm (LPARC.cached s') := by
  have hn := h.good.onT2 hb
  obtain ⟨b, h3, h4⟩ := h.t2.find r hb
  have he : all { t with t2 := (clock 1).onHit t.t2 r } = all t := by simp only [all, onHit_ent]
  have hR : Rep cs sz { s with t2 := b, inB1 := false, inB2 := false } { t with t2 := (clock 1).onHit t.t2 r } := by
    refine ⟨h.csz, h.t1, h4, h.b1, h.b2, h.p, h.good.sub (by rw [he]) ?_⟩
    show charge 0 (ent t.t1) + charge 0 (ent ((clock 1).onHit t.t2 r)) ≤ cs
    rw [onHit_ent]; exact h.good.cap
  refine ⟨{ s with t2 := b, inB1 := false, inB2 := false }, ?_, hR, rfl, rfl, rfl, ?_⟩
  · simp only [find, h.t1.peek r, h.t2.peek r, h.b1.peek r, h.b2.peek r, Res.bind_ok, decide_eq_false hn.1, decide_eq_false hn.2.1, decide_eq_false hn.2.2,
      decide_eq_true hb, Bool.or_false, reduceCtorEq, if_false, false_and, hit, h3, Bool.false_eq_true, Bool.or_true]
  · have := hR.cached
    simp only [contents, onHit_ent] at this
    exact this

/-! ### insert and remove -/

theorem Rep.insert_t1 (h : Rep cs sz s t) (r : Req) (hok : Fits cs sz r) (hn : r.id ∉ (all t).ids) (hroom : charge 0 (ent t.t1) + charge 0 (ent t.t2) + r.size ≤ cs)
    (ha : afterGhostHit s = false) :
    ∃ s', insert s r = .ok s' ∧ Rep cs sz s' { t with t1 := t.t1 ++ [⟨r.id, r.size, 0⟩] } ∧ s'.nReq = s.nReq ∧ s'.inB1 = s.inB1 ∧ s'.inB2 = s.inB2 := by
  obtain ⟨q, h1, h2⟩ := h.t1.insert r (fun hh => hn ((mem_all _ _).2 (Or.inl hh))) (by omega)
  rw [Nat.mod_eq_of_lt hok.2.2] at h2
  refine ⟨{ s with t1 := q }, ?_, ⟨h.csz, h2, h.t2, h.b1, h.b2, h.p, h.good.add (x := (r.id, r.size)) hn ⟨hok.1, hok.2.2⟩ ?_ ?_⟩, rfl, rfl, rfl⟩
  · simp only [insert, ha, Bool.false_eq_true, if_false, h1, Res.bind_ok]
  · show (ent (t.t1 ++ _) ++ _).Perm (_ :: (ent t.t1 ++ _))
    simp only [ent, List.map_append, List.map_cons, List.map_nil, List.append_assoc, List.singleton_append]
    exact List.perm_middle
  · show charge 0 (ent (t.t1 ++ _)) + charge 0 (ent t.t2) ≤ cs
    simp only [ent, List.map_append, charge_app, List.map_cons, List.map_nil, charge] at hroom ⊢
    omega

theorem Rep.insert_t2 (h : Rep cs sz s t) (r : Req) (hok : Fits cs sz r) (hn : r.id ∉ (all t).ids) (hroom : charge 0 (ent t.t1) + charge 0 (ent t.t2) + r.size ≤ cs)
    (ha : afterGhostHit s = true) :
    ∃ s', insert s r = .ok s' ∧ Rep cs sz s' { t with t2 := t.t2 ++ [⟨r.id, r.size, 0⟩] } ∧ s'.nReq = s.nReq ∧ s'.inB1 = false ∧ s'.inB2 = false := by
  obtain ⟨q, h1, h2⟩ := h.t2.insert r (fun hh => hn ((mem_all _ _).2 (Or.inr (Or.inl hh)))) (by omega)
  rw [Nat.mod_eq_of_lt hok.2.2] at h2
  refine ⟨{ s with t2 := q, inB1 := false, inB2 := false, vtime := -1 }, ?_, ⟨h.csz, h.t1, h2, h.b1, h.b2, h.p, h.good.add (x := (r.id, r.size)) hn ⟨hok.1, hok.2.2⟩ ?_ ?_⟩, rfl, rfl, rfl⟩
  · simp only [insert, ha, if_true, h1, Res.bind_ok]
  · show (ent t.t1 ++ (ent (t.t2 ++ _) ++ _)).Perm (_ :: (ent t.t1 ++ (ent t.t2 ++ _)))
    simp only [ent, List.map_append, List.map_cons, List.map_nil, List.append_assoc, List.singleton_append]
    rw [← List.append_assoc, ← List.append_assoc]
    exact List.perm_middle
  · show charge 0 (ent t.t1) + charge 0 (ent (t.t2 ++ _)) ≤ cs
    simp only [ent, List.map_append, charge_app, List.map_cons, List.map_nil, charge] at hroom ⊢
    omega

theorem charge_filter (l : Contents) (q : ObjId × Nat → Bool) : charge 0 (l.filter q) ≤ charge 0 l := by
  induction l with
  | nil => exact Nat.le_refl _
  | cons x l ih =>
    rw [List.filter_cons]
    split
    · simp only [charge]; omega
    · simp only [charge]; omega

theorem Rep.remove_spec (h : Rep cs sz s t) (id : ObjId) :
    ∃ s', remove s id = .ok (decide (id ∈ (contents t).ids), s') ∧
      Rep cs sz s' { t with t1 := t.t1.filter (fun x => x.id ≠ id), t2 := t.t2.filter (fun x => x.id ≠ id) } ∧
      s'.nReq = s.nReq ∧ s'.inB1 = s.inB1 ∧ s'.inB2 = s.inB2 := by
  obtain ⟨a, h1, h2⟩ := h.t1.remove id
  obtain ⟨b, h3, h4⟩ := h.t2.remove id
  refine ⟨{ s with t1 := a, t2 := b }, ?_, ⟨h.csz, h2, h4, h.b1, h.b2, h.p, h.good.sub ?_ ?_⟩, rfl, rfl, rfl⟩
  · simp only [remove, h1, h3, Res.bind_ok]
    congr 2
    rw [← Bool.decide_or, decide_eq_decide, contents, ids_append, List.mem_append]
  · show (ent (t.t1.filter _) ++ (ent (t.t2.filter _) ++ _)).Subperm _
    rw [CC.ids_filter, CC.ids_filter]
    exact (List.filter_sublist.append (List.filter_sublist.append (List.Sublist.refl _))).subperm
  · show charge 0 (ent (t.t1.filter _)) + charge 0 (ent (t.t2.filter _)) ≤ cs
    rw [CC.ids_filter, CC.ids_filter]
    have h5 := charge_filter (ent t.t1) (fun y => y.1 ≠ id)
    have h6 := charge_filter (ent t.t2) (fun y => y.1 ≠ id)
    have := h.good.cap
    omega

end

/-! ### eviction -/

/-- only the lists differ -/
def Same (s s' : State R) : Prop := s'.nReq = s.nReq ∧ s'.inB1 = s.inB1 ∧ s'.inB2 = s.inB2 ∧ s'.vtime = s.vtime

theorem Same.trans {s s' s'' : State R} (h : Same s s') (h' : Same s' s'') : Same s s'' :=
  ⟨h'.1.trans h.1, h'.2.1.trans h.2.1, h'.2.2.1.trans h.2.2.1, h'.2.2.2.trans h.2.2.2⟩

theorem Same.after {s s' : State R} (h : Same s s') : afterGhostHit s' = afterGhostHit s := by
  unfold afterGhostHit; rw [h.1, h.2.1, h.2.2.1, h.2.2.2]

theorem makeRoom_len (C need : Nat) : ∀ n (l : Contents), (makeRoom lru C 0 need n l).Sublist l := fun n l => (makeRoom_prefix C need n l).sublist

theorem remember_sublist {cs : Nat} {l : Contents} {y : ObjId × Nat} (hn : y.1 ∉ l.ids) (hy : y.2 < u32) : (Experts.remember cs l y).Sublist (y :: l) := by
  have hh : holds lru ⟨l, .none⟩ y.1 = false := by simp only [holds, lru]; exact decide_eq_false hn
  unfold Experts.remember tget
  simp only [hh, Bool.false_eq_true, if_false, Adm.admit, true_and, Nat.add_zero]
  split
  · show ((y.1, y.2 % u32) :: makeRoom lru cs 0 y.2 (lru.contents l).length l).Sublist (y :: l)
    rw [Nat.mod_eq_of_lt hy]
    exact (makeRoom_len _ _ _ _).cons_cons _
  · exact List.sublist_cons_self _ _

section
variable {cs : Nat} {sz : ObjId → Nat} {s : State R} {t t' : St R.P}

theorem ne_nil_of_charge {l : List Item} (h : 0 < charge 0 (ent l)) : l ≠ [] := by
  rintro rfl
  simp [ent, charge] at h

theorem nextVictim_spec {x : Clock.State} {v : Item} {o : Obj Nat} (h1 : Clock.toEvict x = some v.id) (h2 : x.base.lookup v.id = some o) :
    nextVictim x = .ok o.toReq := by simp only [nextVictim, h1, h2]

/-- what an eviction by the rule `E` does -/
structure Evicts (cs : Nat) (sz : ObjId → Nat) (s s' : State R) (t t' : St R.P) (x : ObjId × Nat) : Prop where
  rep : Rep cs sz s' t'
  same : Same s s'
  perm : (contents t).Perm (x :: contents t')
  sub : (all t').Subperm (all t)

theorem Rep.demote1 (h : Rep cs sz s t) (r : Req) (hne : 0 < charge 0 (ent t.t1)) (hf : fromT1 s = true) :
    ∃ s' x, replace s r = .ok s' ∧ Evicts cs sz s s' t (LazyARC.demote1 cs t) x ∧ Clock.toEvict s.t1 = some x.1 := by
  obtain ⟨v, q, o, k1, k2, k3, k4, k5, k6, k7⟩ := h.t1.evict r (ne_nil_of_charge hne)
  have hv : v.entry ∈ ent t.t1 := k7.symm.subset (by simp)
  have hvn := h.good.onT1 (List.mem_map_of_mem hv)
  have hvs := h.good.sized v.entry (List.mem_append_left _ hv)
  obtain ⟨b, g, j1, j2⟩ := h.b1.get o.toReq
  have eo : (o.toReq.id, o.toReq.size) = v.entry := k6
  rw [eo] at j2
  have et : LazyARC.demote1 cs t = { t with t1 := clockEvict t.t1, b1 := Experts.remember cs t.b1 v.entry } := by simp only [LazyARC.demote1, k1]
  have hsub : (all (LazyARC.demote1 cs t)).Subperm (all t) := by
    rw [et]
    show (ent (clockEvict t.t1) ++ (ent t.t2 ++ (Experts.remember cs t.b1 v.entry ++ t.b2))).Subperm (ent t.t1 ++ (ent t.t2 ++ (t.b1 ++ t.b2)))
    have hs : (Experts.remember cs t.b1 v.entry).Sublist (v.entry :: t.b1) := remember_sublist hvn.2.1 hvs.2
    refine (((List.Sublist.refl _).append ((List.Sublist.refl _).append (hs.append (List.Sublist.refl _)))).subperm).trans (List.Perm.subperm ?_)
    refine List.Perm.trans ?_ (k7.append_right _).symm
    rw [List.cons_append, List.cons_append]
    refine List.Perm.trans (List.Perm.append_left _ List.perm_middle) List.perm_middle
  have hR : Rep cs sz { s with t1 := q, b1 := g } (LazyARC.demote1 cs t) := by
    have hc := charge_perm (md := 0) k7
    simp only [charge] at hc
    have hcap := h.good.cap
    have hg := h.good.sub hsub (by rw [et]; show charge 0 (ent (clockEvict t.t1)) + charge 0 (ent t.t2) ≤ cs; omega)
    rw [et] at hg ⊢
    exact ⟨h.csz, k3, h.t2, j2, h.b2, h.p, hg⟩
  refine ⟨{ s with t1 := q, b1 := g }, v.entry, ?_, ⟨hR, ⟨rfl, rfl, rfl, rfl⟩, ?_, hsub⟩, k4⟩
  · simp only [replace, hf, if_true, nextVictim_spec k4 k5, Res.bind_ok, j1, k2]
  · rw [et]
    exact k7.append_right _

theorem Rep.demote2 (h : Rep cs sz s t) (r : Req) (hne : 0 < charge 0 (ent t.t2)) (hf : fromT1 s = false) :
    ∃ s' x, replace s r = .ok s' ∧ Evicts cs sz s s' t (LazyARC.demote2 cs t) x ∧ Clock.toEvict s.t2 = some x.1 := by
  obtain ⟨v, q, o, k1, k2, k3, k4, k5, k6, k7⟩ := h.t2.evict r (ne_nil_of_charge hne)
  have hv : v.entry ∈ ent t.t2 := k7.symm.subset (by simp)
  have hvn := h.good.onT2 (List.mem_map_of_mem hv)
  have hvs := h.good.sized v.entry (List.mem_append_right _ (List.mem_append_left _ hv))
  obtain ⟨b, g, j1, j2⟩ := h.b2.get o.toReq
  have eo : (o.toReq.id, o.toReq.size) = v.entry := k6
  rw [eo] at j2
  have et : LazyARC.demote2 cs t = { t with t2 := clockEvict t.t2, b2 := Experts.remember cs t.b2 v.entry } := by simp only [LazyARC.demote2, k1]
  have hsub : (all (LazyARC.demote2 cs t)).Subperm (all t) := by
    rw [et]
    show (ent t.t1 ++ (ent (clockEvict t.t2) ++ (t.b1 ++ Experts.remember cs t.b2 v.entry))).Subperm (ent t.t1 ++ (ent t.t2 ++ (t.b1 ++ t.b2)))
    have hs : (Experts.remember cs t.b2 v.entry).Sublist (v.entry :: t.b2) := remember_sublist hvn.2.2 hvs.2
    refine (((List.Sublist.refl _).append ((List.Sublist.refl _).append ((List.Sublist.refl _).append hs))).subperm).trans (List.Perm.subperm ?_)
    refine List.Perm.append_left _ ?_
    refine List.Perm.trans ?_ (k7.append_right _).symm
    rw [List.cons_append, ← List.append_assoc, ← List.append_assoc]
    exact List.perm_middle
  have hR : Rep cs sz { s with t2 := q, b2 := g } (LazyARC.demote2 cs t) := by
    have hc := charge_perm (md := 0) k7
    simp only [charge] at hc
    have hcap := h.good.cap
    have hg := h.good.sub hsub (by rw [et]; show charge 0 (ent t.t1) + charge 0 (ent (clockEvict t.t2)) ≤ cs; omega)
    rw [et] at hg ⊢
    exact ⟨h.csz, h.t1, k3, h.b1, j2, h.p, hg⟩
  refine ⟨{ s with t2 := q, b2 := g }, v.entry, ?_, ⟨hR, ⟨rfl, rfl, rfl, rfl⟩, ?_, hsub⟩, k4⟩
  · simp only [replace, hf, Bool.false_eq_true, if_false, nextVictim_spec k4 k5, Res.bind_ok, j1, k2]
  · rw [et]
    exact (k7.append_left _).trans List.perm_middle

theorem Rep.fromT1_iff (h : Rep cs sz s t) : fromT1 s = true ↔
    (0 < LazyARC.size t.t1 ∧ ((aim R cs).gt (LazyARC.size t.t1) t.p = true ∨ ((aim R cs).eq (LazyARC.size t.t1) t.p = true ∧ s.inB2 = true))) ∨ LazyARC.size t.t2 = 0 := by
  unfold fromT1 overTarget
  simp only [Bool.or_eq_true, Bool.and_eq_true, decide_eq_true_eq, h.t1.occ, h.t2.occ, size_eq, aim, h.p]
  constructor
  · rintro (⟨h1, h2⟩ | h1)
    · exact Or.inl ⟨by omega, h2⟩
    · exact Or.inr (by omega)
  · rintro (⟨h1, h2⟩ | h1)
    · exact Or.inl ⟨by omega, h2⟩
    · exact Or.inr (by omega)

theorem Rep.replace_spec (h : Rep cs sz s t) (r : Req) (hpos : 0 < charge 0 (ent t.t1) + charge 0 (ent t.t2)) :
    ∃ s' x, replace s r = .ok s' ∧ Evicts cs sz s s' t (LazyARC.replace (aim R cs) cs s.inB2 t) x ∧ (0 < charge 0 (ent t.t2) → toReplace s = some x.1) := by
  have hi := h.fromT1_iff
  cases hf : fromT1 s with
  | true =>
    have hc := hi.1 hf
    have hne : 0 < charge 0 (ent t.t1) := by
      simp only [size_eq] at hc
      rcases hc with ⟨hc, _⟩ | hc <;> omega
    obtain ⟨s', x, k1, k2, k3⟩ := h.demote1 r hne hf
    refine ⟨s', x, k1, ?_, fun h2 => ?_⟩
    · rw [LazyARC.replace, if_pos hc]; exact k2
    · have : overTarget s = true := by
        simp only [fromT1, Bool.or_eq_true, decide_eq_true_eq] at hf
        rcases hf with hf | hf
        · exact hf
        · rw [h.t2.occ] at hf; omega
      simp only [toReplace, this, if_true, k3]
  | false =>
    have hc : ¬ _ := fun hh => by rw [hi.2 hh] at hf; cases hf
    have hne : 0 < charge 0 (ent t.t2) := by
      have : ¬ LazyARC.size t.t2 = 0 := fun hh => hc (Or.inr hh)
      rw [size_eq] at this
      omega
    obtain ⟨s', x, k1, k2, k3⟩ := h.demote2 r hne hf
    refine ⟨s', x, k1, ?_, fun h2 => ?_⟩
    · rw [LazyARC.replace, if_neg hc]; exact k2
    · have : overTarget s = false := by
        simp only [fromT1, Bool.or_eq_false_iff] at hf
        exact hf.1
      simp only [toReplace, this, Bool.false_eq_true, if_false, k3]

theorem Rep.shrink_spec (h : Rep cs sz s t) (r : Req) (hlt : charge 0 (ent t.t1) + charge 0 t.b1 + charge 0 (ent t.t2) < 2 * cs) :
    ∀ n m (l : Contents) (q : LRU.State), LL cs q l → l.length < n → l.length ≤ m →
      ∃ q', shrinkB2 s r n q = .ok q' ∧
        LL cs q' (makeRoom lru (2 * cs) 0 (LazyARC.size t.t1 + bytes 0 t.b1 + LazyARC.size t.t2 + 1) m l) := by
  intro n
  induction n with
  | zero => intro m l q _ hl; omega
  | succ n ih =>
    intro m l q hq hl hm
    by_cases hc : charge 0 (ent t.t1) + charge 0 t.b1 + charge 0 (ent t.t2) + charge 0 l < 2 * cs
    · refine ⟨q, ?_, ?_⟩
      · rw [shrinkB2, if_neg]
        rw [h.t1.occ, h.b1.occ, h.t2.occ, hq.occ, h.csz]; omega
      · cases m with
        | zero => exact hq
        | succ m =>
          rw [makeRoom, if_pos]
          · exact hq
          · simp only [lru, size_eq, bytes_eq_charge]; omega
    · obtain ⟨c, y, rfl⟩ := exists_last (l := l) (by omega)
      obtain ⟨q1, _, h1, h2, _⟩ := hq.last r
      simp only [List.length_append, List.length_cons, List.length_nil] at hl hm
      cases m with
      | zero => omega
      | succ m =>
        obtain ⟨q', k1, k2⟩ := ih m c q1 h2 (by omega) (by omega)
        refine ⟨q', ?_, ?_⟩
        · rw [shrinkB2, if_pos, h1, Res.bind_ok, k1]
          rw [h.t1.occ, h.b1.occ, h.t2.occ, hq.occ, h.csz]; omega
        · rw [makeRoom, if_neg]
          · show LL cs q' (makeRoom lru _ 0 _ m (c ++ [y]).dropLast)
            rw [List.dropLast_concat]; exact k2
          · simp only [lru, size_eq, bytes_eq_charge]; omega

theorem Evicts.of_sub {s0 s' : State R} {t0 : St R.P} {x : ObjId × Nat} (h : Evicts cs sz s s' t t' x) (hs : Same s0 s) (hc : contents t = contents t0)
    (ha : (all t).Subperm (all t0)) : Evicts cs sz s0 s' t0 t' x :=
  ⟨h.rep, hs.trans h.same, by rw [← hc]; exact h.perm, h.sub.trans ha⟩

theorem Rep.evictMiss_spec (h : Rep cs sz s t) (r : Req) (hpos : 0 < charge 0 (ent t.t1) + charge 0 (ent t.t2)) (h0 : 0 < r.size) (hle : r.size ≤ cs) :
    ∃ s' x, evictMiss s r = .ok s' ∧ Evicts cs sz s s' t (missEvict (aim R cs) cs r.size s.inB2 t) x ∧ (0 < charge 0 (ent t.t2) → toEvictMiss s r = some x.1) := by
  by_cases hA : charge 0 (ent t.t1) + charge 0 t.b1 + r.size > cs
  · have hA' : s.t1.base.occ + s.b1.base.occ + r.size > (s.cacheSize : Int) := by rw [h.t1.occ, h.b1.occ, h.csz]; omega
    have hA2 : LazyARC.size t.t1 + bytes 0 t.b1 + r.size > cs := by simp only [size_eq, bytes_eq_charge]; exact hA
    by_cases hB : 0 < charge 0 t.b1
    · have hB' : s.b1.base.occ > 0 := by rw [h.b1.occ]; omega
      have hB2 : 0 < bytes 0 t.b1 := by simp only [bytes_eq_charge]; exact hB
      obtain ⟨c, y, e⟩ := exists_last hB
      have hL : LL cs s.b1 (c ++ [y]) := by rw [← e]; exact h.b1
      obtain ⟨g, _, h1, h2, _⟩ := hL.last r
      have ed : t.b1.dropLast = c := by rw [e, List.dropLast_concat]
      have hsub : (all { t with b1 := t.b1.dropLast }).Subperm (all t) :=
        ((List.Sublist.refl _).append ((List.Sublist.refl _).append ((List.dropLast_sublist _).append (List.Sublist.refl _)))).subperm
      have hR : Rep cs sz { s with b1 := g } { t with b1 := t.b1.dropLast } :=
        ⟨h.csz, h.t1, h.t2, by rw [ed]; exact h2, h.b2, h.p, h.good.sub hsub h.good.cap⟩
      obtain ⟨s', x, k1, k2, k3⟩ := hR.replace_spec r hpos
      refine ⟨s', x, ?_, ?_, fun ht => ?_⟩
      · simp only [evictMiss, hA', hB', if_true, h1, Res.bind_ok, k1]
      · rw [missEvict, if_pos hA2, if_pos hB2]
        exact k2.of_sub ⟨rfl, rfl, rfl, rfl⟩ rfl hsub
      · simp only [toEvictMiss, hA', hB', if_true]
        exact k3 ht
    · have hB' : ¬ s.b1.base.occ > 0 := by rw [h.b1.occ]; omega
      have hB2 : ¬ 0 < bytes 0 t.b1 := by simp only [bytes_eq_charge]; exact hB
      obtain ⟨v, q, o, k1, k2, k3, k4, k5, k6, k7⟩ := h.t1.evict r (ne_nil_of_charge (by omega))
      have hsub : (all { t with t1 := clockEvict t.t1 }).Subperm (all t) := by
        show (ent (clockEvict t.t1) ++ _).Subperm (ent t.t1 ++ _)
        exact ((List.sublist_cons_self v.entry _).append (List.Sublist.refl _)).subperm.trans (k7.symm.append_right _).subperm
      have hc := charge_perm (md := 0) k7
      simp only [charge] at hc
      have hcap := h.good.cap
      have hR : Rep cs sz { s with t1 := q } { t with t1 := clockEvict t.t1 } :=
        ⟨h.csz, k3, h.t2, h.b1, h.b2, h.p, h.good.sub hsub (by show charge 0 (ent (clockEvict t.t1)) + charge 0 (ent t.t2) ≤ cs; omega)⟩
      refine ⟨{ s with t1 := q }, v.entry, ?_, ?_, fun _ => ?_⟩
      · simp only [evictMiss, hA', hB', if_true, if_false, k2, Res.bind_ok]
      · rw [missEvict, if_pos hA2, if_neg hB2]
        exact ⟨hR, ⟨rfl, rfl, rfl, rfl⟩, k7.append_right _, hsub⟩
      · simp only [toEvictMiss, hA', hB', if_true, if_false, k4]
  · have hA' : ¬ s.t1.base.occ + s.b1.base.occ + r.size > (s.cacheSize : Int) := by rw [h.t1.occ, h.b1.occ, h.csz]; omega
    have hA2 : ¬ LazyARC.size t.t1 + bytes 0 t.b1 + r.size > cs := by simp only [size_eq, bytes_eq_charge]; exact hA
    have hle2 := h.t2.le
    obtain ⟨g, h1, h2⟩ := h.shrink_spec r (by omega) (s.b2.base.tbl.length + 1) t.b2.length t.b2 s.b2 h.b2 (by rw [h.b2.len]; omega) (Nat.le_refl _)
    have hsub : (all (shrink cs t)).Subperm (all t) :=
      ((List.Sublist.refl _).append ((List.Sublist.refl _).append ((List.Sublist.refl _).append (makeRoom_len _ _ _ _)))).subperm
    have hR : Rep cs sz { s with b2 := g } (shrink cs t) := ⟨h.csz, h.t1, h.t2, h.b1, h2, h.p, h.good.sub hsub h.good.cap⟩
    obtain ⟨s', x, k1, k2, k3⟩ := hR.replace_spec r hpos
    refine ⟨s', x, ?_, ?_, fun ht => ?_⟩
    · simp only [evictMiss, hA', if_false, h1, Res.bind_ok, k1]
    · rw [missEvict, if_neg hA2]
      exact k2.of_sub ⟨rfl, rfl, rfl, rfl⟩ rfl hsub
    · simp only [toEvictMiss, hA', if_false]
      exact k3 ht

/-- the rule by which the state evicts for a request of `need` bytes -/
def rule (cs need : Nat) (s : State R) : St R.P → St R.P :=
  if afterGhostHit s then LazyARC.replace (aim R cs) cs s.inB2 else missEvict (aim R cs) cs need s.inB2

theorem Same.rule {s s' : State R} (h : Same s s') (cs need : Nat) : rule cs need s' = rule cs need s := by
  unfold LPARC.rule; rw [h.after, h.2.2.1]

theorem Rep.evict_spec (h : Rep cs sz s t) (r : Req) (hpos : 0 < charge 0 (ent t.t1) + charge 0 (ent t.t2)) (h0 : 0 < r.size) (hle : r.size ≤ cs) :
    ∃ s' x, evict s r = .ok s' ∧ Evicts cs sz s s' t (rule cs r.size s t) x ∧ (0 < charge 0 (ent t.t2) → toEvict s r = some x.1) := by
  unfold rule evict toEvict
  cases afterGhostHit s with
  | true => exact h.replace_spec r hpos
  | false => exact h.evictMiss_spec r hpos h0 hle

theorem Rep.mustEvict_iff (h : Rep cs sz s t) (r : Req) : (algo R).mustEvict s r = true ↔ cs < charge 0 (ent t.t1) + charge 0 (ent t.t2) + r.size := by
  show decide (s.t1.base.occ + s.t2.base.occ + r.size + (0 : Nat) > (s.cacheSize : Int)) = true ↔ _
  rw [decide_eq_true_eq, h.t1.occ, h.t2.occ, h.csz]; omega

/-- one round of the eviction loop -/
theorem Rep.round (h : Rep cs sz s t) (r : Req) (hle : r.size ≤ cs) (hme : (algo R).mustEvict s r = true) :
    ∃ s' x, (algo R).evict s r = .ok s' ∧ Evicts cs sz s s' t (rule cs r.size s t) x := by
  have hm := (h.mustEvict_iff r).1 hme
  have hcap := h.good.cap
  obtain ⟨s', x, h1, h2, _⟩ := h.evict_spec r (by omega) (by omega) hle
  exact ⟨s', x, h1, h2⟩

theorem contents_len (t : St R.P) : (contents t).length = t.t1.length + t.t2.length := by simp [contents, ent]

/-- the eviction loop -/
theorem Rep.loop (r : Req) (hle : r.size ≤ cs) : ∀ n m (s : State R) (t : St R.P), Rep cs sz s t → t.t1.length + t.t2.length ≤ n → t.t1.length + t.t2.length ≤ m →
    ∃ s', (algo R).evictLoop r n s = .ok s' ∧ Rep cs sz s' (room (rule cs r.size s) cs r.size m t) ∧ Same s s' ∧ (algo R).mustEvict s' r = false ∧
      (all (room (rule cs r.size s) cs r.size m t)).Subperm (all t) := by
  intro n
  induction n with
  | zero =>
    intro m s t h hn hm
    have hme : (algo R).mustEvict s r = false := by
      cases hme : (algo R).mustEvict s r with
      | false => rfl
      | true =>
        obtain ⟨s', x, h1, h2⟩ := h.round r hle hme
        have := h2.perm.length_eq
        rw [contents_len, List.length_cons] at this
        omega
    have hr : ∀ m, room (rule cs r.size s) cs r.size m t = t := by
      intro m
      cases m with
      | zero => rfl
      | succ m =>
        rw [room, if_pos]
        have : ¬ cs < _ := fun hh => by rw [(h.mustEvict_iff r).2 hh] at hme; cases hme
        rw [size_eq, size_eq]; omega
    rw [hr]
    exact ⟨s, by simp [Algo.evictLoop, hme], h, ⟨rfl, rfl, rfl, rfl⟩, hme, List.Subperm.refl _⟩
  | succ n ih =>
    intro m s t h hn hm
    cases hme : (algo R).mustEvict s r with
    | false =>
      have hr : ∀ m, room (rule cs r.size s) cs r.size m t = t := by
        intro m
        cases m with
        | zero => rfl
        | succ m =>
          rw [room, if_pos]
          have : ¬ cs < _ := fun hh => by rw [(h.mustEvict_iff r).2 hh] at hme; cases hme
          rw [size_eq, size_eq]; omega
      rw [hr]
      exact ⟨s, by simp [Algo.evictLoop, hme], h, ⟨rfl, rfl, rfl, rfl⟩, hme, List.Subperm.refl _⟩
    | true =>
      obtain ⟨s1, x, h1, h2⟩ := h.round r hle hme
      have hl := h2.perm.length_eq
      rw [contents_len, List.length_cons, contents_len] at hl
      cases m with
      | zero => omega
      | succ m =>
        obtain ⟨s', k1, k2, k3, k4, k5⟩ := ih m s1 _ h2.rep (by omega) (by omega)
        rw [h2.same.rule] at k2 k5
        have hm := (h.mustEvict_iff r).1 hme
        have er : room (rule cs r.size s) cs r.size (m + 1) t = room (rule cs r.size s) cs r.size m (rule cs r.size s t) := by
          rw [room, if_neg]
          rw [size_eq, size_eq]; omega
        rw [er]
        exact ⟨s', by simp [Algo.evictLoop, hme, h1, k1], k2, h2.same.trans k3, k4, k5.trans h2.sub⟩

end

end Verif.LPARC
