import Verif.Proof.ARCv0Run
/-!
# ARCv0 and ARC agree on objects of one byte
-/

namespace Verif.ARCv0
open Verif Verif.Spec Verif.Spec.Adaptive
open Verif.ARC (Arith Bounds charge_unit)

variable {R : Arith} {cs : Nat}

/-- the calls considered: `get`s -/
def gets : Perms := { upd := false, peek := false, rem := false, ev := false, ins := false }

theorem demotes_of_lru {k j : Lst} {a a' : Lists} {x : ObjId × Nat} (hkj : k ≠ j) (hu : ∀ k, ∀ x ∈ a k, x.2 = 1) (hap : Apart a) (hb : (a j).length + 1 ≤ cs)
    (h : DemotesLru cs k j a x a') : Demotes k j a x a' := by
  obtain ⟨c, e, rfl⟩ := h
  refine ⟨c, e, ?_⟩
  have hx : x ∈ a k := by rw [e]; simp
  have hn : x.1 ∉ (a j).ids := fun hm => hkj (hap _ _ _ (List.mem_map_of_mem hx) hm)
  have hs := hu k x hx
  rw [remember_new hn (by rw [charge_unit (hu j), hs]; exact hb), Nat.mod_eq_of_lt (by rw [hs]; decide)]
  show _ = put (put a k c) j (x :: put a k c j)
  rw [put_other _ _ (Ne.symm hkj)]

theorem replaces_of_lru {gt eq : Nat → Bool} {b : Bool} {a a' : Lists} {x : ObjId × Nat} (hu : ∀ k, ∀ x ∈ a k, x.2 = 1) (hap : Apart a)
    (h1 : (a .B1).length + (a .T1).length ≤ cs) (h2 : (a .B2).length + 1 ≤ cs) (h : ReplacesLru cs gt eq b a x a') : Replaces 0 gt eq b a x a' := by
  rcases h with ⟨hf, hd⟩ | ⟨hf, hd⟩
  · refine Or.inl ⟨hf, demotes_of_lru (by simp) hu hap ?_ hd⟩
    obtain ⟨c, e, _⟩ := hd
    rw [e, List.length_append] at h1
    simp only [List.length_cons, List.length_nil] at h1
    omega
  · exact Or.inr ⟨hf, demotes_of_lru (by simp) hu hap h2 hd⟩

theorem last_unique {c d : Contents} {x y : ObjId × Nat} (h : c ++ [x] = d ++ [y]) : c = d ∧ x = y := by
  have := List.append_inj' h rfl
  exact ⟨this.1, by simpa using this.2⟩

theorem demotes_unique {k j : Lst} {a a1 a2 : Lists} {x y : ObjId × Nat} (h1 : Demotes k j a x a1) (h2 : Demotes k j a y a2) : a1 = a2 := by
  obtain ⟨c, e, rfl⟩ := h1
  obtain ⟨d, e', rfl⟩ := h2
  obtain ⟨rfl, rfl⟩ := last_unique (e.symm.trans e')
  rfl

theorem forgets_unique {k : Lst} {a a1 a2 : Lists} {x y : ObjId × Nat} (h1 : Forgets k a x a1) (h2 : Forgets k a y a2) : a1 = a2 := by
  obtain ⟨c, e, rfl⟩ := h1
  obtain ⟨d, e', rfl⟩ := h2
  obtain ⟨rfl, rfl⟩ := last_unique (e.symm.trans e')
  rfl

theorem replaces_unique {gt eq : Nat → Bool} {b : Bool} {a a1 a2 : Lists} {x y : ObjId × Nat} (h1 : Replaces 0 gt eq b a x a1) (h2 : Replaces 0 gt eq b a y a2) : a1 = a2 := by
  rcases h1 with ⟨f1, d1⟩ | ⟨f1, d1⟩ <;> rcases h2 with ⟨f2, d2⟩ | ⟨f2, d2⟩
  · exact demotes_unique d1 d2
  · exact absurd f1 f2
  · exact absurd f2 f1
  · exact demotes_unique d1 d2

theorem forgets_facts {k : Lst} {a a1 : Lists} {y : ObjId × Nat} (h : Forgets k a y a1) :
    (a1 k).length + 1 = (a k).length ∧ (∀ j, j ≠ k → a1 j = a j) ∧ (∀ j x, x ∈ a1 j → x ∈ a j) := by
  obtain ⟨c, e, rfl⟩ := h
  refine ⟨by rw [put_same, e]; simp, fun j hj => put_other _ _ hj, fun j x hx => ?_⟩
  by_cases hj : j = k
  · subst hj; rw [put_same] at hx; rw [e]; exact List.mem_append_left _ hx
  · rw [put_other _ _ hj] at hx; exact hx

/-- one eviction in case IV, in a full cache within the bounds of the paper -/
theorem miss_agree {gt eq : Nat → Bool} {b : Bool} {a a1 a2 : Lists} {x y : ObjId × Nat} (hB : Bounds cs a) (hap : Apart a)
    (hfull : (a .T1).length + (a .T2).length = cs) (h1 : MissEvicts cs 0 1 gt eq b a x a1) (h2 : MissEvictsLru cs 1 gt eq b a y a2) : a1 = a2 := by
  have hl := hB.l1
  have ht := hB.total
  have hch : ∀ k, bytes 0 (a k) = (a k).length := fun k => by rw [bytes_eq_charge, charge_unit (hB.unit k)]
  have sub : ∀ {a' : Lists}, (∀ j x, x ∈ a' j → x ∈ a j) → (∀ k, ∀ x ∈ a' k, x.2 = 1) ∧ Apart a' := fun hs =>
    ⟨fun k x hx => hB.unit k x (hs k x hx), hap.sub (fun k id hid => by
      obtain ⟨z, hz, rfl⟩ := List.mem_map.1 hid; exact List.mem_map_of_mem (hs k z hz))⟩
  unfold MissEvicts at h1
  unfold MissEvictsLru at h2
  simp only [hch, Nat.add_zero] at h1 h2
  split at h1
  · next hc =>
    rw [if_pos hc] at h2
    split at h1
    · next hb =>
      rw [if_pos hb] at h2
      obtain ⟨z, b1, f1, r1⟩ := h1
      obtain ⟨z', b2, f2, r2⟩ := h2
      have e := forgets_unique f1 f2
      subst e
      obtain ⟨g1, g2, g3⟩ := forgets_facts f1
      obtain ⟨s1, s2⟩ := sub g3
      refine replaces_unique r1 (replaces_of_lru s1 s2 ?_ ?_ r2)
      · rw [g2 .T1 (by simp)]; omega
      · rw [g2 .B2 (by simp)]; omega
    · next hb =>
      rw [if_neg hb] at h2
      exact forgets_unique h1 h2
  · next hc =>
    rw [if_neg hc] at h2
    obtain ⟨b2, ⟨rest, gone, e, rfl, hlt, hmin⟩, r2⟩ := h2
    have hbr : bytes 0 rest = rest.length := by
      rw [bytes_eq_charge, charge_unit (fun z hz => hB.unit .B2 z (by rw [e]; exact List.mem_append_left _ hz))]
    rw [hbr] at hlt
    simp only [hch] at hlt hmin
    have hel : (a .B2).length = rest.length + gone.length := by rw [e, List.length_append]
    have hsub : ∀ j x, x ∈ put a .B2 rest j → x ∈ a j := by
      intro j x hx
      by_cases hj : j = .B2
      · subst hj; rw [put_same] at hx; rw [e]; exact List.mem_append_left _ hx
      · rw [put_other _ _ hj] at hx; exact hx
    obtain ⟨s1, s2⟩ := sub hsub
    have r2' : Replaces 0 gt eq b (put a .B2 rest) y a2 := by
      refine replaces_of_lru s1 s2 ?_ ?_ r2
      · rw [put_other _ _ (by simp), put_other _ _ (by simp)]; omega
      · rw [put_same]; omega
    split at h1
    · next h2c =>
      obtain ⟨z, b1, f1, r1⟩ := h1
      -- exactly one is forgotten
      have hg : gone.length = 1 := by
        cases gone with
        | nil => simp only [List.length_nil] at hel; omega
        | cons y0 more =>
          have := hmin y0 more rfl
          have hb' : bytes 0 (rest ++ [y0]) = rest.length + 1 := by
            rw [bytes_eq_charge, charge_unit (fun z hz => hB.unit .B2 z (by
              rw [e]
              rcases List.mem_append.1 hz with hz | hz
              · exact List.mem_append_left _ hz
              · refine List.mem_append_right _ ?_; rw [List.mem_singleton.1 hz]; exact List.mem_cons_self)), List.length_append]
            rfl
          rw [hb'] at this
          simp only [List.length_cons] at hel ⊢
          omega
      obtain ⟨w, hw⟩ := List.length_eq_one_iff.1 hg
      rw [hw] at e
      have e2 : b1 = put a .B2 rest := forgets_unique f1 (⟨rest, e, rfl⟩ : Forgets .B2 a w _)
      subst e2
      exact replaces_unique r1 r2'
    · next h2c =>
      have hg : gone = [] := by
        cases gone with
        | nil => rfl
        | cons y0 more =>
          exfalso
          have := hmin y0 more rfl
          have hb' : bytes 0 (rest ++ [y0]) = rest.length + 1 := by
            rw [bytes_eq_charge, charge_unit (fun z hz => hB.unit .B2 z (by
              rw [e]
              rcases List.mem_append.1 hz with hz | hz
              · exact List.mem_append_left _ hz
              · refine List.mem_append_right _ ?_; rw [List.mem_singleton.1 hz]; exact List.mem_cons_self)), List.length_append]
            rfl
          rw [hb'] at this
          simp only [List.length_cons] at hel
          apply h2c
          constructor <;> omega
      have e2 : put a .B2 rest = a := by
        funext j
        by_cases hj : j = .B2
        · subst hj; rw [put_same, e, hg, List.append_nil]
        · rw [put_other _ _ hj]
      rw [e2] at r2'
      exact replaces_unique h1 r2'

/-- both evict nothing, or both one object from a full cache -/
theorem evicts_agree {r1 r2 : Lists → ObjId × Nat → Lists → Prop} {b a1 a2 : Lists} {vs ws : Contents} {c : Contents} (hu : ∀ x ∈ c, x.2 = 1) (hlen : c.length ≤ cs)
    (h1 : EvictsAll r1 b vs a1) (h2 : EvictsAll r2 b ws a2) (p1 : c.Perm (vs ++ (a1 .T1 ++ a1 .T2))) (p2 : c.Perm (ws ++ (a2 .T1 ++ a2 .T2)))
    (f1 : charge 0 (a1 .T1 ++ a1 .T2) + 1 ≤ cs) (f2 : charge 0 (a2 .T1 ++ a2 .T2) + 1 ≤ cs)
    (m1 : ∀ us v, vs = us ++ [v] → charge 0 (v :: (a1 .T1 ++ a1 .T2)) + 1 > cs) (m2 : ∀ us v, ws = us ++ [v] → charge 0 (v :: (a2 .T1 ++ a2 .T2)) + 1 > cs)
    (key : c.length = cs → ∀ x y, r1 b x a1 → r2 b y a2 → a1 = a2) : a1 = a2 := by
  have l1 := ARC.one_victim hu p1 hlen m1
  have l2 := ARC.one_victim hu p2 hlen m2
  have hc1 : charge 0 (a1 .T1 ++ a1 .T2) = (a1 .T1 ++ a1 .T2).length := charge_unit (fun x hx => hu x (p1.mem_iff.2 (List.mem_append_right _ hx)))
  have hc2 : charge 0 (a2 .T1 ++ a2 .T2) = (a2 .T1 ++ a2 .T2).length := charge_unit (fun x hx => hu x (p2.mem_iff.2 (List.mem_append_right _ hx)))
  have e1 := p1.length_eq
  have e2 := p2.length_eq
  have one : ∀ {v : ObjId × Nat} {us : Contents}, v ∈ c → us.length + 1 = c.length → charge 0 us = us.length → charge 0 (v :: us) + 1 > cs → c.length = cs := by
    intro v us hv hl hcu hgt
    simp only [charge, hcu, hu v hv] at hgt
    omega
  match vs, h1 with
  | [], .none _ =>
    match ws, h2 with
    | [], .none _ => rfl
    | [w], .one q (.none _) =>
      exfalso
      have := one (p2.mem_iff.2 (by simp)) (by simp only [List.length_append, List.length_cons, List.length_nil] at e2 ⊢; omega) hc2 (m2 [] w rfl)
      simp only [List.nil_append] at e1
      omega
    | _ :: _ :: _, _ => simp at l2
  | [v], .one q (.none _) =>
    have hfull := one (p1.mem_iff.2 (by simp)) (by simp only [List.length_append, List.length_cons, List.length_nil] at e1 ⊢; omega) hc1 (m1 [] v rfl)
    match ws, h2 with
    | [], .none _ =>
      simp only [List.nil_append] at e2
      omega
    | [w], .one q' (.none _) => exact key hfull _ _ q q'
    | _ :: _ :: _, _ => simp at l2
  | _ :: _ :: _, _ => simp at l1

/-- the two states hold the same lists, target, flags and admission policy -/
structure Agree (cs : Nat) (s : ARC.State R) (t : State R) : Prop where
  arc : ARC.Inv cs 0 s
  bnd : Bounds cs (ARC.lists s)
  v0 : Rep cs (fun _ => 1) gets t (ARC.lists s)
  vt : t.vtime ≤ (t.out.nReq : Int)
  p : t.p = s.p
  f1 : t.inB1 = s.inB1
  f2 : t.inB2 = s.inB2
  adm : t.out.adm = s.base.adm

theorem agree_init (cs : Nat) (adm : Adm) : Agree cs (ARC.init cs 0 adm : ARC.State R) (init cs adm) := by
  refine ⟨ARC.inv_init cs 0 adm, ARC.bounds_init cs adm, ?_, by show (-1 : Int) ≤ ((0 : Nat) : Int); omega, rfl, rfl, rfl, rfl⟩
  have h := inv_init (R := R) cs (fun _ => 1) gets adm
  unfold Inv at h
  have e : lists (init cs adm : State R) = ARC.lists (ARC.init cs 0 adm : ARC.State R) := by funext k; cases k <;> rfl
  rw [e] at h
  exact h

theorem agree_get {s : ARC.State R} {t : State R} (h : Agree cs s t) (r : Req) (hr : r.size = 1) :
    ∃ b s' t', (ARC.algo R).get s r = .ok (b, s') ∧ (algo R).get t r = .ok (b, t') ∧ Agree cs s' t' := by
  have hokA : Requests cs 0 r := fun _ => by rw [hr]; decide
  have hok : Sized cs (fun _ => 1) r := ⟨hr, fun _ => by rw [hr]; decide⟩
  have hins : gets.ins = false := rfl
  obtain ⟨s', hg, hi', _⟩ := ARC.contract.get r hokA h.arc
  generalize decide (r.id ∈ (ARC.cached s).ids) = b at hg
  have hBs := ARC.bounds_step (op := .get r) (show Calls ARC.calls (fun r => r.size = 1) (.get r) from hr) ⟨h.arc, h.bnd⟩ hg
  have hu : ∀ x ∈ ARC.lists s .T1 ++ ARC.lists s .T2, x.2 = 1 := by
    intro y hy
    rcases List.mem_append.1 hy with hy | hy
    · exact h.bnd.unit _ y hy
    · exact h.bnd.unit _ y hy
  have hcap : (ARC.lists s .T1 ++ ARC.lists s .T2).length ≤ cs := by
    have := h.v0.cap
    rw [charge_unit (h.bnd.unit _), charge_unit (h.bnd.unit _)] at this
    rw [List.length_append]; exact this
  have had : admitsBase t.out r = admitsBase s.base r := by
    rw [admitsBase, admitsBase, h.adm, h.v0.csz, h.v0.mdz, h.arc.abs.csz, h.arc.abs.mdz]
  have vt' : ∀ {b t'}, (algo R).get t r = .ok (b, t') → t'.vtime ≤ (t'.out.nReq : Int) := by
    intro b t' e
    obtain ⟨m1, m2, _⟩ := h.v0.get_more r hok e
    have := h.vt
    rw [m1]
    rcases m2 with m2 | m2 | m2 <;> rw [m2] <;> push_cast <;> omega
  have hpe : (ARC.cached s).Perm (ARC.lists s .T1 ++ ARC.lists s .T2) := h.arc.abs.cached_perm
  obtain ⟨_, hc⟩ := ARC.get_cases h.arc hokA hg
  rcases hc with ⟨k, x, c1, c2, c3, c4, c5, c6, c7, c8, c9⟩ | ⟨k, x, c1, c2, c3, c4, c5, c6, c7⟩ | ⟨c1, c2, c3, c4, c5, c6, c7⟩
  · have hk : k = .T1 ∨ k = .T2 := by cases k <;> simp [ARC.ghost] at c1 <;> simp
    obtain ⟨t', e1, e2, e3, e4, e5, e6⟩ := h.v0.get_hit hins r hok hk c2 c3
    subst c4
    exact ⟨true, s', t', hg, e1, hBs.1, hBs.2, by rw [c5]; exact e2, vt' e1, by rw [e3, c6, h.p], by rw [e4, c7], by rw [e5, c8], by rw [e6, c9, h.adm]⟩
  · have hk : k = .B1 ∨ k = .B2 := by cases k <;> simp [ARC.ghost] at c1 <;> simp
    have hm : r.id ∈ (ARC.lists s k).ids := by rw [c3]; exact List.mem_map_of_mem c2
    obtain ⟨t', e1, e2, e3, e4⟩ := h.v0.get_ghost hins r hok hk hm
    have hp : t'.p = s'.p := by rw [e2, c5, h.p]
    have hdrop : drop (ARC.lists s) k x = put (ARC.lists s) k (without r.id (ARC.lists s k)) := by unfold drop; rw [c3]
    subst c4
    refine ⟨false, s', t', hg, e1, ?_⟩
    rcases c6 with ⟨d1, d2, d3, d4⟩ | ⟨d1, vs, a1, d2, d3, d4, d5, d6, d7, d8⟩
    · obtain ⟨g1, g2, g3, g4⟩ := e3 (by rw [had]; exact d1)
      exact ⟨hBs.1, hBs.2, by rw [d2, hdrop]; exact g1, vt' e1, hp, by rw [g3, d3], by rw [g4, d4], by rw [g2, c7, h.adm]⟩
    · obtain ⟨ws, a2, g1, g2, g3, g4, g5, g6, g7⟩ := e4 (by rw [had]; exact d1)
      have ha : a1 = a2 := by
        rw [hdrop] at d2
        rw [hp] at g1
        rw [hr] at d5 d6 g6 g7
        refine evicts_agree hu hcap d2 g1 (hpe.symm.trans d4) g7.1 (by simpa using d5) (by rw [charge_app]; omega) (by simpa using d6) (fun us v e => g7.2 us v e) ?_
        intro hfull x1 y1 q1 q2
        rw [List.length_append] at hfull
        have hdl : (without r.id (ARC.lists s k)).length + 1 = (ARC.lists s k).length := by
          rw [c3]; exact (ARC.without_length (h.arc.abs.rep.nd k) c2).symm
        have hsub : ∀ j x, x ∈ put (ARC.lists s) k (without r.id (ARC.lists s k)) j → x ∈ ARC.lists s j := by
          intro j x hx
          by_cases hj : j = k
          · subst hj; rw [put_same] at hx; exact List.mem_of_mem_filter hx
          · rw [put_other _ _ hj] at hx; exact hx
        have hap : Apart (put (ARC.lists s) k (without r.id (ARC.lists s k))) := (h.v0.apart hins).sub (fun k id hid => by
          obtain ⟨z, hz, rfl⟩ := List.mem_map.1 hid; exact List.mem_map_of_mem (hsub k z hz))
        have b1 := h.bnd.l1
        have b2 := h.bnd.total
        refine replaces_unique q1 (replaces_of_lru (fun j x hx => h.bnd.unit j x (hsub j x hx)) hap ?_ ?_ q2)
        · rcases hk with rfl | rfl
          · rw [put_same, put_other _ _ (by simp)]; omega
          · rw [put_other _ _ (by simp), put_other _ _ (by simp)]; omega
        · rcases hk with rfl | rfl
          · rw [put_other _ _ (by simp)]; omega
          · rw [put_same]; omega
      exact ⟨hBs.1, hBs.2, by rw [d3, ha]; exact g2, vt' e1, hp, by rw [g3, d7], by rw [g4, d8], by rw [g5, c7, h.adm]⟩
  · obtain ⟨t', e1, e2, e3, e4, e5, e6, e7⟩ := h.v0.get_none h.vt r hok c1
    subst c2
    refine ⟨false, s', t', hg, e1, hBs.1, hBs.2, ?_, vt' e1, by rw [e2, c3, h.p], by rw [e3, c4, h.f1], by rw [e4, c5, h.f2], by rw [e5, c6, h.adm]⟩
    rcases c7 with ⟨d1, d2⟩ | ⟨d1, vs, a1, d2, d3, d4, d5, d6⟩
    · rw [d2]; exact e6 (by rw [had]; exact d1)
    · obtain ⟨ws, a2, g1, g2, g6, g7⟩ := e7 (by rw [had]; exact d1)
      have ha : a1 = a2 := by
        rw [h.p, h.f2, hr] at g1
        rw [hr] at d2 d5 d6 g6 g7
        refine evicts_agree hu hcap d2 g1 (hpe.symm.trans d4) g7.1 (by simpa using d5) (by rw [charge_app]; omega) (by simpa using d6) (fun us v e => g7.2 us v e) ?_
        intro hfull x1 y1 q1 q2
        rw [List.length_append] at hfull
        exact miss_agree h.bnd (h.v0.apart hins) hfull q1 q2
      rw [d3, ha]; exact g2

theorem agree_run {s : ARC.State R} {t : State R} (h : Agree cs s t) : ∀ (reqs : List Req), (∀ r ∈ reqs, r.size = 1) →
    ∃ out s' t', Reaches (ARC.algo R) s (reqs.map .get) out s' ∧ Reaches (algo R) t (reqs.map .get) out t' ∧ Agree cs s' t' := by
  intro reqs
  induction reqs generalizing s t with
  | nil => intro _; exact ⟨[], s, t, rfl, rfl, h⟩
  | cons r reqs ih =>
    intro hu
    obtain ⟨b, s1, t1, h1, h2, h3⟩ := agree_get h r (hu r (by simp))
    obtain ⟨out, s', t', k1, k2, k3⟩ := ih h3 (fun r' hr' => hu r' (by simp [hr']))
    refine ⟨b :: out, s', t', ?_, ?_, k3⟩
    · simp only [Reaches, List.map_cons, Algo.run, Algo.step, h1, Res.bind_ok] at k1 ⊢
      rw [k1]; rfl
    · simp only [Reaches, List.map_cons, Algo.run, Algo.step, h2, Res.bind_ok] at k2 ⊢
      rw [k2]; rfl

end Verif.ARCv0
