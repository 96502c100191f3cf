import Verif.Proof.ARCv0
import Verif.Proof.ARCBounds
/-!
# Runs of ARCv0: what `get` does in each case, the target, the flags
-/

namespace Verif.ARCv0
open Verif Verif.Spec Verif.Spec.Adaptive
open Verif.ARC (Arith InRange up_range down_range)

variable {R : Arith} {cs : Nat} {sz : ObjId → Nat} {p : Perms} {s : State R} {a : Lists}

/-- the target after a `find` with update or a `get` -/
def Moved (cs : Nat) (s s' : State R) : Prop := s'.p = s.p ∨ (∃ x y, s'.p = R.up s.p x y cs) ∨ (∃ x y, s'.p = R.down s.p x y)

theorem Rep.find_more (h : Rep cs sz p s a) (r : Req) (hok : Sized cs sz r) {b : Bool} {s' : State R} (hf : find s r true = .ok (b, s')) :
    s'.out = s.out ∧ (s'.vtime = s.vtime ∨ s'.vtime = s.out.nReq) ∧ Moved cs s s' := by
  by_cases hb1 : r.id ∈ (a .B1).ids
  · obtain ⟨s1, h1, _, h3, h4, _, _, h5, _⟩ := h.find_b1 r hb1
    rw [h1] at hf; injection hf with hf; injection hf with _ hf; subst hf
    exact ⟨h3, Or.inr h5, Or.inr (Or.inl ⟨_, _, h4⟩)⟩
  · by_cases hb2 : r.id ∈ (a .B2).ids
    · obtain ⟨s1, h1, _, h3, h4, _, _, h5, _⟩ := h.find_b2 r hb1 hb2
      rw [h1] at hf; injection hf with hf; injection hf with _ hf; subst hf
      exact ⟨h3, Or.inr h5, Or.inr (Or.inr ⟨_, _, h4⟩)⟩
    · by_cases hc : r.id ∈ (ARCv0.cached s).ids
      · obtain ⟨k, x, hk, hx, hxe⟩ : ∃ k x, (k = .T1 ∨ k = .T2) ∧ x ∈ a k ∧ r.id = x.1 := by
          rcases (h.mem r.id).1 hc with hm | hm
          · obtain ⟨x, hx, e⟩ := List.mem_map.1 hm; exact ⟨.T1, x, Or.inl rfl, hx, e.symm⟩
          · obtain ⟨x, hx, e⟩ := List.mem_map.1 hm; exact ⟨.T2, x, Or.inr rfl, hx, e.symm⟩
        obtain ⟨s1, h1, _, h3, h4, _, _, h5⟩ := h.find_hit r hok hk hx hxe hb1 hb2
        rw [h1] at hf; injection hf with hf; injection hf with _ hf; subst hf
        exact ⟨h3, Or.inl h5, Or.inl h4⟩
      · have hn : ∀ k, r.id ∉ (a k).ids := by
          intro k
          cases k with
          | T1 => exact fun hm => hc ((h.mem _).2 (Or.inl hm))
          | T2 => exact fun hm => hc ((h.mem _).2 (Or.inr hm))
          | B1 => exact hb1
          | B2 => exact hb2
        rw [h.find_none r hn] at hf; injection hf with hf; injection hf with _ hf; subst hf
        exact ⟨rfl, Or.inl rfl, Or.inl rfl⟩

theorem Rep.get_more (h : Rep cs sz p s a) (r : Req) (hok : Sized cs sz r) {b : Bool} {s' : State R} (hg : (algo R).get s r = .ok (b, s')) :
    s'.out.nReq = s.out.nReq + 1 ∧ (s'.vtime = s.vtime ∨ s'.vtime = (s.out.nReq + 1 : Nat) ∨ s'.vtime = -1) ∧ Moved cs s s' := by
  obtain ⟨s1, a1, h1, h2, h3, h4, h5⟩ := h.bump.find_spec r hok
  obtain ⟨_, m2, m3⟩ := h.bump.find_more r hok h1
  by_cases hc : r.id ∈ (ARCv0.cached ((algo R).bump s)).ids
  · rw [decide_eq_true hc] at h1
    rw [get_hit (A := algo R) h1] at hg; injection hg with hg; injection hg with _ hg; subst hg
    exact ⟨by rw [h4]; rfl, m2.imp id Or.inl, m3⟩
  · rw [decide_eq_false hc] at h1
    have hn : r.id ∉ (ARCv0.cached s1).ids := fun hm => hc ((h3.map Prod.fst).subset hm)
    obtain ⟨k1, k2⟩ := h2.rest (s := s) hok h1 hn h5
    cases ha : admitsBase s1.out r with
    | false =>
      obtain ⟨s2, e1, _, e2⟩ := k1 ha
      rw [e1] at hg; injection hg with hg; injection hg with _ hg; subst hg
      rw [e2]
      exact ⟨by show s1.out.nReq = _; rw [h4]; rfl, m2.imp id Or.inl, m3⟩
    | true =>
      obtain ⟨s2, a2, vs, e1, _, _, e3, e4, _, _, e5, _⟩ := k2 ha
      rw [e1] at hg; injection hg with hg; injection hg with _ hg; subst hg
      refine ⟨by rw [e3]; show s1.out.nReq = _; rw [h4]; rfl, ?_, ?_⟩
      · rw [e5]; split
        · exact Or.inr (Or.inr rfl)
        · exact m2.imp id Or.inl
      · unfold Moved; rw [e4]; exact m3

theorem step_more {op : Op} {b : Bool} {s s' : State R} (hp : p.upd = false) (he : p.ev = false) (hop : Calls p (Sized cs sz) op) (hi : Inv cs sz p s)
    (hs : (algo R).step s op = .ok (b, s')) :
    (s.vtime ≤ (s.out.nReq : Int) → s'.vtime ≤ (s'.out.nReq : Int)) ∧ Moved cs s s' := by
  cases op with
  | get r =>
    obtain ⟨m1, m2, m3⟩ := Rep.get_more hi r hop hs
    refine ⟨fun hv => ?_, m3⟩
    rw [m1]
    rcases m2 with m2 | m2 | m2 <;> rw [m2] <;> push_cast <;> omega
  | find r u =>
    cases u with
    | true => exact absurd (show p.upd = true from hop) (by rw [hp]; simp)
    | false =>
      rw [show (algo R).step s (.find r false) = find s r false from rfl, Rep.find_false hi r] at hs
      injection hs with hs; injection hs with _ hs; subst hs
      exact ⟨id, Or.inl rfl⟩
  | remove id =>
    obtain ⟨s1, k1, _, k2⟩ := Rep.remove_spec hi id
    rw [show (algo R).step s (.remove id) = remove s id from rfl, k1] at hs
    injection hs with hs; injection hs with _ hs; subst hs
    rw [k2]
    exact ⟨fun h => h, Or.inl rfl⟩
  | evict r => exact absurd (show p.ev = true from hop) (by rw [he]; simp)
  | insert r =>
    have hf := Rep.find_false hi r
    simp only [Algo.step, show (algo R).find s r false = find s r false from rfl, hf, Res.bind_ok] at hs
    cases hc : decide (r.id ∈ (ARCv0.cached s).ids) with
    | true =>
      rw [hc] at hs; simp at hs
      obtain ⟨_, rfl⟩ := hs
      exact ⟨id, Or.inl rfl⟩
    | false =>
      rw [hc] at hs
      have hn := of_decide_eq_false hc
      cases hme : (algo R).mustEvict s r with
      | true =>
        rw [hme] at hs; simp at hs
        obtain ⟨_, rfl⟩ := hs
        exact ⟨id, Or.inl rfl⟩
      | false =>
        have hm : ¬ cs < _ := fun hh => by rw [(Rep.mustEvict_iff hi r).2 hh] at hme; cases hme
        obtain ⟨s1, k1, _, k2, k3, _, _, k4⟩ := Rep.insert_spec hi r hop.2 (by omega) (fun hh => hn ((Rep.mem hi _).2 (Or.inl hh)))
          (fun hh => hn ((Rep.mem hi _).2 (Or.inr hh))) (fun hh => by rw [hop.1] at hh; cases hh)
        rw [hme, show (algo R).insert s r = insert s r from rfl, k1] at hs
        simp at hs
        obtain ⟨_, rfl⟩ := hs
        refine ⟨fun hv => ?_, Or.inl k3⟩
        rw [k2, k4]; split <;> omega

theorem inv_step {op : Op} {b : Bool} {s s' : State R} (hp : p.upd = false) (he : p.ev = false) (hop : Calls p (Sized cs sz) op) (hi : Inv cs sz p s)
    (hs : (algo R).step s op = .ok (b, s')) : Inv cs sz p s' := by
  obtain ⟨b1, s1, h1, h2, _⟩ := (contract hp he).step op hop hi
  rw [h1] at hs; injection hs with hs; injection hs with _ hs; subst hs
  exact h2

theorem reach_vtime (hp : p.upd = false) (he : p.ev = false) (adm : Adm) {ops : List Op} {out : List Bool} {s : State R} (ho : ∀ op ∈ ops, Calls p (Sized cs sz) op)
    (hr : Reaches (algo R) (init cs adm) ops out s) : s.vtime ≤ (s.out.nReq : Int) := by
  have := run_inv (A := algo R) (okOp := Calls p (Sized cs sz)) (P := fun s => Inv cs sz p s ∧ s.vtime ≤ (s.out.nReq : Int))
    (fun hop h hs => ⟨inv_step hp he hop h.1 hs, (step_more hp he hop h.1 hs).1 h.2⟩)
    ⟨inv_init cs sz p adm, by show (-1 : Int) ≤ ((0 : Nat) : Int); omega⟩ ho hr
  exact this.2

theorem reach_target (hp : p.upd = false) (he : p.ev = false) (adm : Adm) {ops : List Op} {out : List Bool} {s : State Arith.exact}
    (ho : ∀ op ∈ ops, Calls p (Sized cs sz) op) (hr : Reaches (algo Arith.exact) (init cs adm) ops out s) : InRange cs s.p := by
  have := run_inv (A := algo Arith.exact) (okOp := Calls p (Sized cs sz)) (P := fun s => Inv cs sz p s ∧ InRange cs s.p)
    (fun hop h hs => ⟨inv_step hp he hop h.1 hs, by
      rcases (step_more hp he hop h.1 hs).2 with m | ⟨x, y, m⟩ | ⟨x, y, m⟩
      · rw [m]; exact h.2
      · rw [m]; exact up_range _ _ h.2
      · rw [m]; exact down_range _ _ h.2⟩)
    ⟨inv_init cs sz p adm, le_refl (0 : Rat), Nat.cast_nonneg cs⟩ ho hr
  exact this.2

/-! ### the three cases of `get` -/

theorem Rep.get_hit (h : Rep cs sz p s a) (hins : p.ins = false) (r : Req) (hok : Sized cs sz r) {k : Lst} {x : ObjId × Nat} (hk : k = .T1 ∨ k = .T2) (hx : x ∈ a k) (hxe : r.id = x.1) :
    ∃ s', (algo R).get s r = .ok (true, s') ∧ Rep cs sz p s' (Adaptive.hit a k x) ∧ s'.p = s.p ∧ s'.inB1 = false ∧ s'.inB2 = false ∧ s'.out.adm = s.out.adm := by
  have hm : r.id ∈ (a k).ids := by rw [hxe]; exact List.mem_map_of_mem hx
  have hg : ∀ j, j ≠ k → r.id ∉ (a j).ids := fun j hj hmj => hj (h.apart hins _ _ _ hmj hm)
  obtain ⟨s1, h1, h2, h3, h4, h5, h6, _⟩ := h.bump.find_hit r hok hk hx hxe (hg _ (by rcases hk with rfl | rfl <;> simp)) (hg _ (by rcases hk with rfl | rfl <;> simp))
  exact ⟨s1, Verif.get_hit (A := algo R) h1, h2, h4, h5, h6, by rw [h3]; rfl⟩

theorem Rep.get_ghost (h : Rep cs sz p s a) (hins : p.ins = false) (r : Req) (hok : Sized cs sz r) {k : Lst} (hk : k = .B1 ∨ k = .B2) (hm : r.id ∈ (a k).ids) :
    ∃ s', (algo R).get s r = .ok (false, s') ∧
      s'.p = (if k = .B1 then R.up s.p (charge 0 (a .B2) : Nat) (charge 0 (a .B1) : Nat) cs else R.down s.p (charge 0 (a .B1) : Nat) (charge 0 (a .B2) : Nat)) ∧
      (admitsBase s.out r = false → Rep cs sz p s' (put a k (without r.id (a k))) ∧ s'.out.adm = (s.out.adm.admit r).2 ∧ s'.inB1 = decide (k = .B1) ∧ s'.inB2 = decide (k = .B2)) ∧
      (admitsBase s.out r = true → ∃ vs a', EvictsAll (ReplacesLru cs (fun n => R.gt n s'.p) (fun n => R.eq n s'.p) (decide (k = .B2))) (put a k (without r.id (a k))) vs a' ∧
        Rep cs sz p s' (push a' .T2 (r.id, r.size)) ∧ s'.inB1 = false ∧ s'.inB2 = false ∧ s'.out.adm = (s.out.adm.admit r).2 ∧
        charge 0 (a' .T1) + charge 0 (a' .T2) + r.size ≤ cs ∧ Victims cs r.size a vs a') := by
  have hg : ∀ j, j ≠ k → r.id ∉ (a j).ids := fun j hj hmj => hj (h.apart hins _ _ _ hmj hm)
  obtain ⟨s1, h1, h2, h3, h4, h5, h6, h10, h7, h8, h9⟩ : ∃ s1, find ((algo R).bump s) r true = .ok (decide (r.id ∈ (ARCv0.cached ((algo R).bump s)).ids), s1) ∧
      Rep cs sz p s1 (put a k (without r.id (a k))) ∧ s1.out = ((algo R).bump s).out ∧
      s1.p = (if k = .B1 then R.up s.p (charge 0 (a .B2) : Nat) (charge 0 (a .B1) : Nat) cs else R.down s.p (charge 0 (a .B1) : Nat) (charge 0 (a .B2) : Nat)) ∧
      (s1.inB1 = true ∨ s1.inB2 = true) ∧ s1.inB2 = decide (k = .B2) ∧ s1.inB1 = decide (k = .B1) ∧ s1.vtime = ((algo R).bump s).out.nReq ∧ s1.t1 = s.t1 ∧ s1.t2 = s.t2 := by
    rcases hk with rfl | rfl
    · obtain ⟨s1, h1, h2, h3, h4, h5, h6, h7, h8, h9⟩ := h.bump.find_b1 r hm
      exact ⟨s1, h1, h2, h3, h4, Or.inl h5, h6, h5, h7, h8, h9⟩
    · obtain ⟨s1, h1, h2, h3, h4, h5, h6, h7, h8, h9⟩ := h.bump.find_b2 r (hg _ (by simp)) hm
      exact ⟨s1, h1, h2, h3, h4, Or.inr h6, h6, h5, h7, h8, h9⟩
  have hnc : r.id ∉ (ARCv0.cached s).ids := by
    intro hc
    rcases (h.mem _).1 hc with hc | hc
    · exact hg _ (by rcases hk with rfl | rfl <;> simp) hc
    · exact hg _ (by rcases hk with rfl | rfl <;> simp) hc
  rw [decide_eq_false (show r.id ∉ (ARCv0.cached ((algo R).bump s)).ids from hnc)] at h1
  have hag : afterGhostHit s1 = true := by
    simp only [afterGhostHit, h7, h3, Bool.and_eq_true, Bool.or_eq_true, decide_true, true_and]
    exact h5
  have hnc1 : r.id ∉ (ARCv0.cached s1).ids := by unfold ARCv0.cached; rw [h8, h9]; exact hnc
  have hgh : ∀ j, r.id ∉ (put a k (without r.id (a k)) j).ids := by
    intro j
    by_cases hj : j = k
    · subst hj; rw [put_same]; intro hmm; exact (ids_filter_ne.1 hmm).2 rfl
    · rw [put_other _ _ hj]; exact hg j hj
  obtain ⟨k1, k2⟩ := h2.rest (s := s) hok h1 hnc1 (fun _ => ⟨hgh _, hgh _⟩)
  have had : admitsBase s1.out r = admitsBase s.out r := by rw [h3]; rfl
  rw [had] at k1 k2
  have hadm : s1.out.adm = s.out.adm := by rw [h3]; rfl
  cases ha : admitsBase s.out r with
  | false =>
    obtain ⟨s2, e1, e2, e3⟩ := k1 ha
    refine ⟨s2, e1, ?_, fun _ => ⟨e2, ?_, ?_, ?_⟩, fun hh => by cases hh⟩
    · rw [e3]; exact h4
    · rw [e3, ← hadm]
    · rw [e3]; exact h10
    · rw [e3]; exact h6
  | true =>
    obtain ⟨s2, a2, vs, e1, e2, e3, e4, e5, e6, e7, _, e8, e9⟩ := k2 ha
    rw [hag] at e3 e6 e7
    have e9' : Victims cs r.size a vs a2 := by
      have t : ∀ j, j ≠ k → put a k (without r.id (a k)) j = a j := fun j hj => put_other _ _ hj
      unfold Victims at e9 ⊢
      rw [t .T1 (by rcases hk with rfl | rfl <;> simp), t .T2 (by rcases hk with rfl | rfl <;> simp)] at e9
      exact e9
    refine ⟨s2, e1, by rw [e5]; exact h4, fun hh => (by cases hh), fun _ => ⟨vs, a2, ?_, e3, by simpa using e6, by simpa using e7, ?_, e8, e9'⟩⟩
    · unfold Rule at e2; rw [hag, h6] at e2; rw [e5]; exact e2
    · rw [e4]; rw [← hadm]

theorem Rep.get_none (h : Rep cs sz p s a) (hv : s.vtime ≤ (s.out.nReq : Int)) (r : Req) (hok : Sized cs sz r) (hn : ∀ k, r.id ∉ (a k).ids) :
    ∃ s', (algo R).get s r = .ok (false, s') ∧ s'.p = s.p ∧ s'.inB1 = s.inB1 ∧ s'.inB2 = s.inB2 ∧ s'.out.adm = (s.out.adm.admit r).2 ∧
      (admitsBase s.out r = false → Rep cs sz p s' a) ∧
      (admitsBase s.out r = true → ∃ vs a', EvictsAll (MissEvictsLru cs r.size (fun n => R.gt n s.p) (fun n => R.eq n s.p) s.inB2) a vs a' ∧
        Rep cs sz p s' (push a' .T1 (r.id, r.size)) ∧ charge 0 (a' .T1) + charge 0 (a' .T2) + r.size ≤ cs ∧ Victims cs r.size a vs a') := by
  have h1 := h.bump.find_none r hn
  have hnc : r.id ∉ (ARCv0.cached ((algo R).bump s)).ids := fun hc => by
    rcases (h.bump.mem _).1 hc with hc | hc <;> exact hn _ hc
  have hag : afterGhostHit ((algo R).bump s) = false := by
    have : ¬ s.vtime = ((s.out.nReq + 1 : Nat) : Int) := by push_cast; omega
    show (decide (s.vtime = ((s.out.nReq + 1 : Nat) : Int)) && _) = false
    rw [decide_eq_false this]; rfl
  obtain ⟨k1, k2⟩ := h.bump.rest (s := s) hok h1 hnc (fun _ => ⟨hn _, hn _⟩)
  have had : admitsBase ((algo R).bump s).out r = admitsBase s.out r := rfl
  rw [had] at k1 k2
  cases ha : admitsBase s.out r with
  | false =>
    obtain ⟨s2, e1, e2, e3⟩ := k1 ha
    refine ⟨s2, e1, ?_, ?_, ?_, ?_, fun _ => e2, fun hh => by cases hh⟩ <;> rw [e3] <;> rfl
  | true =>
    obtain ⟨s2, a2, vs, e1, e2, e3, e4, e5, e6, e7, _, e8, e9⟩ := k2 ha
    rw [hag] at e3 e6 e7
    refine ⟨s2, e1, e5, by rw [e6, Bool.not_false, Bool.and_true]; rfl, by rw [e7, Bool.not_false, Bool.and_true]; rfl, by rw [e4]; rfl, fun hh => (by cases hh), fun _ => ⟨vs, a2, ?_, e3, e8, e9⟩⟩
    unfold Rule at e2; rw [hag] at e2; exact e2

theorem Rep.get_reject (h : Rep cs sz p s a) (r : Req) (hok : Sized cs sz r) (hn : r.id ∉ (ARCv0.cached s).ids) (ha : admitsBase s.out r = false) :
    ∃ s', (algo R).get s r = .ok (false, s') ∧ (∀ k : Lst, k = .T1 ∨ k = .T2 → ARCv0.lists s' k = ARCv0.lists s k) ∧
      ((∀ k, r.id ∉ (a k).ids) → ARCv0.lists s' = ARCv0.lists s ∧ s'.p = s.p) := by
  have hn' : r.id ∉ (ARCv0.cached ((algo R).bump s)).ids := hn
  by_cases hx : ∀ k, r.id ∉ (a k).ids
  · have h1 := h.bump.find_none r hx
    obtain ⟨k1, _⟩ := h.bump.rest (s := s) hok h1 hn' (fun _ => ⟨hx _, hx _⟩)
    obtain ⟨s', e1, e2, e3⟩ := k1 ha
    have hl : ARCv0.lists s' = ARCv0.lists s := by rw [e2.lists, h.lists]
    exact ⟨s', e1, fun k _ => by rw [hl], fun _ => ⟨hl, by rw [e3]; rfl⟩⟩
  · obtain ⟨s1, a1, h1, h2, h3, h4, h5⟩ := h.bump.find_spec r hok
    have hkeep : s1.t1 = s.t1 ∧ s1.t2 = s.t2 := by
      by_cases hb1 : r.id ∈ (a .B1).ids
      · obtain ⟨s2, g1, _, _, _, _, _, _, g2, g3⟩ := h.bump.find_b1 r hb1
        rw [h1] at g1; injection g1 with g1; injection g1 with _ g1; subst g1
        exact ⟨g2, g3⟩
      · by_cases hb2 : r.id ∈ (a .B2).ids
        · obtain ⟨s2, g1, _, _, _, _, _, _, g2, g3⟩ := h.bump.find_b2 r hb1 hb2
          rw [h1] at g1; injection g1 with g1; injection g1 with _ g1; subst g1
          exact ⟨g2, g3⟩
        · exfalso
          apply hx
          intro k
          cases k with
          | T1 => exact fun hm => hn ((h.mem _).2 (Or.inl hm))
          | T2 => exact fun hm => hn ((h.mem _).2 (Or.inr hm))
          | B1 => exact hb1
          | B2 => exact hb2
    rw [decide_eq_false hn'] at h1
    have had : admitsBase s1.out r = false := by rw [h4]; exact ha
    obtain ⟨k1, _⟩ := h2.rest (s := s) hok h1 (by unfold ARCv0.cached; rw [hkeep.1, hkeep.2]; exact hn) h5
    obtain ⟨s', e1, e2, e3⟩ := k1 had
    refine ⟨s', e1, fun k hk => ?_, fun hh => absurd hh hx⟩
    rw [e3]
    rcases hk with rfl | rfl
    · show s1.t1.order = s.t1.order; rw [hkeep.1]
    · show s1.t2.order = s.t2.order; rw [hkeep.2]

theorem Rep.get_admit (h : Rep cs sz p s a) (r : Req) (hok : Sized cs sz r) (hn : r.id ∉ (ARCv0.cached s).ids) (ha : admitsBase s.out r = true) :
    ∃ s', (algo R).get s r = .ok (false, s') ∧ (r.id, r.size % u32) ∈ ARCv0.cached s' := by
  have hn' : r.id ∉ (ARCv0.cached ((algo R).bump s)).ids := hn
  obtain ⟨s1, a1, h1, h2, h3, h4, h5⟩ := h.bump.find_spec r hok
  rw [decide_eq_false hn'] at h1
  have had : admitsBase s1.out r = true := by rw [h4]; exact ha
  obtain ⟨_, k2⟩ := h2.rest (s := s) hok h1 (fun hm => hn' ((h3.map Prod.fst).subset hm)) h5
  obtain ⟨s', a', vs, e1, _, e2, _⟩ := k2 had
  refine ⟨s', e1, ?_⟩
  rw [Nat.mod_eq_of_lt (hok.2 (h.fits ha))]
  refine e2.cached.symm.subset ?_
  cases afterGhostHit s1 with
  | true => exact List.mem_append_right _ (by show _ ∈ (r.id, r.size) :: a' .T2; simp)
  | false => exact List.mem_append_left _ (by show _ ∈ (r.id, r.size) :: a' .T1; simp)

/-- `get`s of objects that fit and are admitted -/
def Admitted (cs : Nat) (sz : ObjId → Nat) (op : Op) : Prop := ∃ r : Req, op = .get r ∧ r.size = sz r.id ∧ r.size ≤ cs ∧ r.size < u32

theorem flags_step {op : Op} {b : Bool} {s s' : State R} (hins : p.ins = false) (hop : Admitted cs sz op)
    (h : Inv cs sz p s ∧ s.out.adm = .none ∧ s.vtime ≤ (s.out.nReq : Int) ∧ s.inB1 = false ∧ s.inB2 = false) (hs : (algo R).step s op = .ok (b, s')) :
    Inv cs sz p s' ∧ s'.out.adm = .none ∧ s'.vtime ≤ (s'.out.nReq : Int) ∧ s'.inB1 = false ∧ s'.inB2 = false := by
  obtain ⟨hi, ha, hv, hf1, hf2⟩ := h
  obtain ⟨r, rfl, h1, h2, h3⟩ := hop
  have hok : Sized cs sz r := ⟨h1, fun _ => h3⟩
  have had : admitsBase s.out r = true := by
    rw [admitsBase, ha, Rep.mdz hi, Rep.csz hi]
    simp [h2, Adm.admit]
  have hnone : (s.out.adm.admit r).2 = .none := by rw [ha]; rfl
  have hv' : s'.vtime ≤ (s'.out.nReq : Int) := by
    obtain ⟨m1, m2, _⟩ := Rep.get_more hi r hok hs
    rw [m1]
    rcases m2 with m2 | m2 | m2 <;> rw [m2] <;> push_cast <;> omega
  rw [show (algo R).step s (.get r) = (algo R).get s r from rfl] at hs
  by_cases hex : ∃ k, r.id ∈ (lists s k).ids
  · obtain ⟨k, hk⟩ := hex
    have ghost : ∀ k : Lst, k = .B1 ∨ k = .B2 → r.id ∈ (lists s k).ids → Inv cs sz p s' ∧ s'.out.adm = .none ∧ s'.vtime ≤ (s'.out.nReq : Int) ∧ s'.inB1 = false ∧ s'.inB2 = false := by
      intro k hkk hk
      obtain ⟨s1, e1, _, _, e2⟩ := Rep.get_ghost hi hins r hok hkk hk
      rw [e1] at hs; injection hs with hs; injection hs with _ hs; subst hs
      obtain ⟨vs, a', _, e3, e4, e5, e6, _⟩ := e2 had
      exact ⟨e3.inv, by rw [e6, hnone], hv', e4, e5⟩
    have hot : ∀ k : Lst, k = .T1 ∨ k = .T2 → r.id ∈ (lists s k).ids → Inv cs sz p s' ∧ s'.out.adm = .none ∧ s'.vtime ≤ (s'.out.nReq : Int) ∧ s'.inB1 = false ∧ s'.inB2 = false := by
      intro k hkk hk
      obtain ⟨x, hx, hxe⟩ := List.mem_map.1 hk
      obtain ⟨s1, e1, e2, _, e3, e4, e5⟩ := Rep.get_hit hi hins r hok hkk hx hxe.symm
      rw [e1] at hs; injection hs with hs; injection hs with _ hs; subst hs
      exact ⟨e2.inv, by rw [e5, ha], hv', e3, e4⟩
    cases k with
    | T1 => exact hot _ (Or.inl rfl) hk
    | T2 => exact hot _ (Or.inr rfl) hk
    | B1 => exact ghost _ (Or.inl rfl) hk
    | B2 => exact ghost _ (Or.inr rfl) hk
  · obtain ⟨s1, e1, _, e3, e4, e5, _, e6⟩ := Rep.get_none hi hv r hok (fun k hk => hex ⟨k, hk⟩)
    rw [e1] at hs; injection hs with hs; injection hs with _ hs; subst hs
    obtain ⟨vs, a', _, e7, _⟩ := e6 had
    exact ⟨e7.inv, by rw [e5, hnone], hv', by rw [e3, hf1], by rw [e4, hf2]⟩

end Verif.ARCv0
