import Verif.Proof.ARC
import Mathlib.Algebra.Order.Field.Basic
import Mathlib.Data.Rat.Cast.Order
/-!
# ARC: what the lists satisfy in every reachable state, unit sizes, the range of `p`, the flags
-/

namespace Verif.ARC
open Verif Spec Spec.Adaptive
open Verif.Lists (Rep put_self put_ne put_put without_ids without_perm without_charge without_last last_of_pos onLists)

variable {R : Arith} {cs md : Nat} {s : State R}

/-- A `get`, in four cases. -/
theorem get_cases (h : Inv cs md s) {r : Req} (hok : Requests cs md r) {b : Bool} {s' : State R} (hg : (algo R).get s r = .ok (b, s')) :
    Inv cs md s' ∧
    ((∃ k x, ghost k = false ∧ x ∈ lists s k ∧ r.id = x.1 ∧ b = true ∧ lists s' = hit (lists s) k x ∧ s'.p = s.p ∧ s'.inB1 = false ∧ s'.inB2 = false ∧ s'.base.adm = s.base.adm) ∨
     (∃ k x, ghost k = true ∧ x ∈ lists s k ∧ r.id = x.1 ∧ b = false ∧
        s'.p = (if k = .B1 then R.up s.p (charge md (lists s .B2) : Nat) (charge md (lists s .B1) : Nat) cs
          else R.down s.p (charge md (lists s .B1) : Nat) (charge md (lists s .B2) : Nat)) ∧
        ((admitsBase s.base r = false ∧ lists s' = drop (lists s) k x ∧ s'.inB1 = decide (k = .B1) ∧ s'.inB2 = decide (k = .B2)) ∨
         (admitsBase s.base r = true ∧ ∃ vs a1, EvictsAll (Replaces md (fun n => R.gt (n : Int) s'.p) (fun n => R.eq (n : Int) s'.p) (decide (k = .B2))) (drop (lists s) k x) vs a1 ∧
           lists s' = push a1 .T2 (r.id, r.size) ∧ (cached s).Perm (vs ++ (a1 .T1 ++ a1 .T2)) ∧ charge md (a1 .T1 ++ a1 .T2) + r.size + md ≤ cs ∧
           (∀ us v, vs = us ++ [v] → charge md (v :: (a1 .T1 ++ a1 .T2)) + r.size + md > cs) ∧ s'.inB1 = false ∧ s'.inB2 = false)) ∧ s'.base.adm = (s.base.adm.admit r).2) ∨
     ((∀ k, r.id ∉ (lists s k).ids) ∧ b = false ∧ s'.p = s.p ∧ s'.inB1 = s.inB1 ∧ s'.inB2 = s.inB2 ∧ s'.base.adm = (s.base.adm.admit r).2 ∧
        ((admitsBase s.base r = false ∧ lists s' = lists s) ∨
         (admitsBase s.base r = true ∧ ∃ vs a1, EvictsAll (MissEvicts cs md r.size (fun n => R.gt (n : Int) s.p) (fun n => R.eq (n : Int) s.p) s.inB2) (lists s) vs a1 ∧
           lists s' = push a1 .T1 (r.id, r.size) ∧ (cached s).Perm (vs ++ (a1 .T1 ++ a1 .T2)) ∧ charge md (a1 .T1 ++ a1 .T2) + r.size + md ≤ cs ∧
           (∀ us v, vs = us ++ [v] → charge md (v :: (a1 .T1 ++ a1 .T2)) + r.size + md > cs))))) := by
  have hb := h.bump
  have hadm : ∀ {s1 : State R}, Inv cs md s1 → s1.base.adm = s.base.adm → admitsBase s1.base r = admitsBase s.base r := by
    intro s1 h1 e; rw [admitsBase, admitsBase, e, h1.abs.mdz, h1.abs.csz, h.abs.mdz, h.abs.csz]
  by_cases hin : r.id ∈ (cached s).ids
  · obtain ⟨k, x, h1, h2, h3⟩ := is_cached h hin
    obtain ⟨s2, k1, k2, k3, k4, k5, k6, k7, k8⟩ := find_hit hb h1 h2 r h3
    rw [get_hit (A := algo R) k1] at hg
    cases hg
    exact ⟨k2, Or.inl ⟨k, x, h1, h2, h3, rfl, k3, k5, k6, k7, k8⟩⟩
  · rcases not_cached h hin with ⟨k, x, h1, h2, h3⟩ | h1
    · obtain ⟨s1, k1, k2, k3, k4, k5, k6, k7, k8, k9, k10⟩ := find_ghost hb h1 h2 r h3
      have hrest := get_rest (s := s) k2 hok k1 k9
      rw [hadm k2 k8] at hrest
      have hl : lists ((algo R).bump s) = lists s := rfl
      have hc : cached ((algo R).bump s) = cached s := rfl
      rw [hl] at k3 k10
      rw [hc] at k4
      cases ha : admitsBase s.base r with
      | false =>
        rw [hrest.1 ha] at hg
        injection hg with hg
        injection hg with hg1 hg2
        subst hg2
        exact ⟨k2.frame _, Or.inr (Or.inl ⟨k, x, h1, h2, h3, hg1.symm, k10, Or.inl ⟨rfl, k3, k6, k7⟩, by have e : s1.base.adm = s.base.adm := k8; show (s1.base.adm.admit r).2 = (s.base.adm.admit r).2; rw [e]⟩)⟩
      | true =>
        obtain ⟨s2, vs, a1, kept, m1, m2, m3, m4, m5, m6, m7, m8, m9, m10, m11, m12, m13⟩ := hrest.2 ha
        rw [m1] at hg
        injection hg with hg
        injection hg with hg1 hg2
        subst hg2
        rw [k5, if_pos rfl] at m4 m12 m13
        rw [k3, k5, k7] at m3
        refine ⟨m2, Or.inr (Or.inl ⟨k, x, h1, h2, h3, hg1.symm, m10.trans k10, Or.inr ⟨rfl, vs, a1, ?_, m4, ?_, ?_, ?_, m12, m13⟩, by have e : s1.base.adm = s.base.adm := k8; rw [m11, e]⟩)⟩
        · rw [m10]
          have e : (Evicts cs md r.size R s1.p (decide (k = .B2)) true) = Replaces md (fun n => R.gt (n : Int) s1.p) (fun n => R.eq (n : Int) s1.p) (decide (k = .B2)) := by
            funext a x a'; rw [Evicts, if_pos rfl]
          rw [e] at m3; exact m3
        · exact k4.symm.trans (m5.trans (m6.append_left vs))
        · rw [← charge_perm m6]; exact m8
        · intro us v huv
          have := m9 us v huv
          rw [charge_perm (m6.cons v)] at this; exact this
    · have h1b : ∀ k, r.id ∉ (lists ((algo R).bump s) k).ids := h1
      obtain ⟨k1, k2⟩ := find_none hb h1b
      have hrest := get_rest (s := s) hb hok k1 k2
      rw [hadm hb rfl] at hrest
      have hng : afterGhostHit ((algo R).bump s) = false := by
        have := h.vt
        have e : ¬ (s.vtime = ((s.base.nReq + 1 : Nat) : Int)) := by omega
        show (decide (s.vtime = ((s.base.nReq + 1 : Nat) : Int)) && _) = false
        rw [decide_eq_false e]; rfl
      cases ha : admitsBase s.base r with
      | false =>
        rw [hrest.1 ha] at hg
        injection hg with hg
        injection hg with hg1 hg2
        subst hg2
        exact ⟨hb.frame _, Or.inr (Or.inr ⟨h1, hg1.symm, rfl, rfl, rfl, rfl, Or.inl ⟨rfl, rfl⟩⟩)⟩
      | true =>
        obtain ⟨s2, vs, a1, kept, m1, m2, m3, m4, m5, m6, m7, m8, m9, m10, m11, m12, m13⟩ := hrest.2 ha
        rw [m1] at hg
        injection hg with hg
        injection hg with hg1 hg2
        subst hg2
        rw [hng, if_neg (by simp)] at m4 m12 m13
        rw [hng] at m3
        refine ⟨m2, Or.inr (Or.inr ⟨h1, hg1.symm, m10, m12, m13, m11, Or.inr ⟨rfl, vs, a1, ?_, m4, m5.trans (m6.append_left vs), ?_, ?_⟩⟩)⟩
        · have e : (Evicts cs md r.size R ((algo R).bump s).p ((algo R).bump s).inB2 false) = MissEvicts cs md r.size (fun n => R.gt (n : Int) s.p) (fun n => R.eq (n : Int) s.p) s.inB2 := by
            funext a x a'; rw [Evicts, if_neg (by simp)]; rfl
          rw [e] at m3; exact m3
        · rw [← charge_perm m6]; exact m8
        · intro us v huv
          have := m9 us v huv
          rw [charge_perm (m6.cons v)] at this; exact this

/-- A `find` with update, in three cases. -/
theorem find_cases (h : Inv cs md s) (r : Req) {b : Bool} {s' : State R} (hg : (algo R).find s r true = .ok (b, s')) :
    Inv cs md s' ∧ s'.base.adm = s.base.adm ∧
    ((∃ k x, ghost k = false ∧ x ∈ lists s k ∧ r.id = x.1 ∧ b = true ∧ lists s' = hit (lists s) k x ∧ s'.p = s.p) ∨
     (∃ k x, ghost k = true ∧ x ∈ lists s k ∧ r.id = x.1 ∧ b = false ∧ lists s' = drop (lists s) k x ∧
        s'.p = (if k = .B1 then R.up s.p (charge md (lists s .B2) : Nat) (charge md (lists s .B1) : Nat) cs
          else R.down s.p (charge md (lists s .B1) : Nat) (charge md (lists s .B2) : Nat))) ∨
     ((∀ k, r.id ∉ (lists s k).ids) ∧ b = false ∧ s' = s)) := by
  by_cases hin : r.id ∈ (cached s).ids
  · obtain ⟨k, x, h1, h2, h3⟩ := is_cached h hin
    obtain ⟨s2, k1, k2, k3, k4, k5, k6, k7, k8⟩ := find_hit h h1 h2 r h3
    have hg' : find s r true = .ok (b, s') := hg
    rw [k1] at hg'
    cases hg'
    exact ⟨k2, k8, Or.inl ⟨k, x, h1, h2, h3, rfl, k3, k5⟩⟩
  · rcases not_cached h hin with ⟨k, x, h1, h2, h3⟩ | h1
    · obtain ⟨s1, k1, k2, k3, k4, k5, k6, k7, k8, k9, k10⟩ := find_ghost h h1 h2 r h3
      have hg' : find s r true = .ok (b, s') := hg
      rw [k1] at hg'
      cases hg'
      exact ⟨k2, k8, Or.inr (Or.inl ⟨k, x, h1, h2, h3, rfl, k3, k10⟩)⟩
    · obtain ⟨k1, k2⟩ := find_none h h1
      have hg' : find s r true = .ok (b, s') := hg
      rw [k1] at hg'
      cases hg'
      exact ⟨h, rfl, Or.inr (Or.inr ⟨h1, rfl, rfl⟩)⟩

/-! ### Unit sizes -/

/-- the bounds of the paper -/
structure Bounds (cs : Nat) (a : Lists) : Prop where
  unit : ∀ k, ∀ x ∈ a k, x.2 = 1
  l1 : (a .T1).length + (a .B1).length ≤ cs
  total : (a .T1).length + (a .T2).length + (a .B1).length + (a .B2).length ≤ 2 * cs
  full : (a .T1).length + (a .T2).length < cs → a .B1 = [] ∧ a .B2 = []

theorem charge_unit {c : Contents} (h : ∀ x ∈ c, x.2 = 1) : charge 0 c = c.length := by
  induction c with
  | nil => rfl
  | cons y c ih =>
    have h1 := h y List.mem_cons_self
    have h2 := ih (fun x hx => h x (List.mem_cons_of_mem _ hx))
    simp only [charge, List.length_cons]; omega

theorem mem_without' {id : ObjId} {c : Contents} {x : ObjId × Nat} (h : x ∈ Lists.without id c) : x ∈ c := List.mem_of_mem_filter h

theorem unit_put {a : Lists} {k : Lst} {c : Contents} (h : ∀ k, ∀ x ∈ a k, x.2 = 1) (hc : ∀ x ∈ c, x.2 = 1) : ∀ j, ∀ x ∈ Lists.put a k c j, x.2 = 1 := by
  intro j
  by_cases e : j = k
  · subst e; rw [put_self]; exact hc
  · rw [put_ne _ e]; exact h j

/-- lengths after a demotion -/
theorem Replaces.lengths {md : Nat} {gt eq : Nat → Bool} {b : Bool} {a a' : Lists} {x : ObjId × Nat} (h : Replaces md gt eq b a x a') (hu : ∀ k, ∀ x ∈ a k, x.2 = 1) :
    (∀ k, ∀ x ∈ a' k, x.2 = 1) ∧
    (((a' .T1).length + 1 = (a .T1).length ∧ (a' .B1).length = (a .B1).length + 1 ∧ (a' .T2).length = (a .T2).length ∧ (a' .B2).length = (a .B2).length) ∨
     ((a' .T2).length + 1 = (a .T2).length ∧ (a' .B2).length = (a .B2).length + 1 ∧ (a' .T1).length = (a .T1).length ∧ (a' .B1).length = (a .B1).length)) := by
  have key : ∀ k j, k ≠ j → Demotes k j a x a' → (∀ k, ∀ x ∈ a' k, x.2 = 1) := by
    rintro k j hkj ⟨c, hc, rfl⟩
    have hx : x.2 = 1 := hu k x (by rw [hc]; simp)
    have hp : ∀ i, ∀ y ∈ Lists.put a k c i, y.2 = 1 := unit_put hu (fun y hy => hu k y (by rw [hc]; simp [hy]))
    refine unit_put hp ?_
    intro y hy
    rcases List.mem_cons.1 hy with rfl | hy
    · exact hx
    · exact hp j y hy
  rcases h with ⟨_, h⟩ | ⟨_, h⟩
  · refine ⟨key .T1 .B1 (by decide) h, Or.inl ?_⟩
    obtain ⟨c, hc, rfl⟩ := h
    refine ⟨?_, rfl, rfl, rfl⟩
    show c.length + 1 = _
    rw [hc]; simp
  · refine ⟨key .T2 .B2 (by decide) h, Or.inr ?_⟩
    obtain ⟨c, hc, rfl⟩ := h
    refine ⟨?_, rfl, rfl, rfl⟩
    show c.length + 1 = _
    rw [hc]; simp

theorem Bounds.hit {a : Lists} (h : Bounds cs a) {k : Lst} (hk : ghost k = false) {x : ObjId × Nat} (hn : (a k).ids.Nodup) (hx : x ∈ a k) : Bounds cs (hit a k x) := by
  have hl := without_length hn hx
  obtain ⟨h1, h2, h3, h4⟩ := h
  have hu : ∀ j, ∀ y ∈ Adaptive.hit a k x j, y.2 = 1 := by
    have hp : ∀ i, ∀ y ∈ Lists.put a k (Lists.without x.1 (a k)) i, y.2 = 1 := unit_put h1 (fun y hy => h1 k y (mem_without' hy))
    refine unit_put hp ?_
    intro y hy
    rcases List.mem_cons.1 hy with rfl | hy
    · exact h1 k y hx
    · exact hp .T2 y hy
  cases k with
  | T1 =>
    refine ⟨hu, ?_, ?_, ?_⟩
    · show (Lists.without x.1 (a .T1)).length + (a .B1).length ≤ cs
      omega
    · show (Lists.without x.1 (a .T1)).length + ((a .T2).length + 1) + (a .B1).length + (a .B2).length ≤ 2 * cs
      omega
    · intro hlt
      have hlt' : (Lists.without x.1 (a .T1)).length + ((a .T2).length + 1) < cs := hlt
      exact h4 (by omega)
  | T2 =>
    refine ⟨hu, h2, ?_, ?_⟩
    · show (a .T1).length + ((Lists.without x.1 (a .T2)).length + 1) + (a .B1).length + (a .B2).length ≤ 2 * cs
      omega
    · intro hlt
      have hlt' : (a .T1).length + ((Lists.without x.1 (a .T2)).length + 1) < cs := hlt
      exact h4 (by omega)
  | B1 => simp [ghost] at hk
  | B2 => simp [ghost] at hk

theorem Bounds.drop {a : Lists} (h : Bounds cs a) {k : Lst} (hk : ghost k = true) {x : ObjId × Nat} (hn : (a k).ids.Nodup) (hx : x ∈ a k) : Bounds cs (drop a k x) := by
  have hl := without_length hn hx
  obtain ⟨h1, h2, h3, h4⟩ := h
  have hu : ∀ j, ∀ y ∈ Adaptive.drop a k x j, y.2 = 1 := unit_put h1 (fun y hy => h1 k y (mem_without' hy))
  cases k with
  | T1 => simp [ghost] at hk
  | T2 => simp [ghost] at hk
  | B1 =>
    refine ⟨hu, ?_, ?_, ?_⟩
    · show (a .T1).length + (Lists.without x.1 (a .B1)).length ≤ cs
      omega
    · show (a .T1).length + (a .T2).length + (Lists.without x.1 (a .B1)).length + (a .B2).length ≤ 2 * cs
      omega
    · intro hlt
      obtain ⟨e1, e2⟩ := h4 hlt
      rw [e1] at hx; cases hx
  | B2 =>
    refine ⟨hu, h2, ?_, ?_⟩
    · show (a .T1).length + (a .T2).length + (a .B1).length + (Lists.without x.1 (a .B2)).length ≤ 2 * cs
      omega
    · intro hlt
      obtain ⟨e1, e2⟩ := h4 hlt
      rw [e2] at hx; cases hx

/-- with unit sizes a miss evicts at most one object, and none only if there is room -/
theorem one_victim {c kept vs : Contents} (hu : ∀ x ∈ c, x.2 = 1) (hp : c.Perm (vs ++ kept)) (hcap : c.length ≤ cs)
    (hl : ∀ us v, vs = us ++ [v] → charge 0 (v :: kept) + 1 + 0 > cs) : vs.length ≤ 1 := by
  rcases List.eq_nil_or_concat vs with rfl | ⟨us, v, hv⟩
  · simp
  · rw [List.concat_eq_append] at hv
    have h1 := hl us v hv
    have hk : ∀ x ∈ v :: kept, x.2 = 1 := by
      intro x hx
      apply hu x
      rw [hp.mem_iff, hv]
      rcases List.mem_cons.1 hx with rfl | hx
      · simp
      · simp [hx]
    rw [charge_unit hk] at h1
    have h2 := hp.length_eq
    rw [hv] at h2 ⊢
    simp only [List.length_cons, List.length_append, List.length_nil] at h1 h2 ⊢
    omega

theorem unit_push {a : Lists} {k : Lst} {id : ObjId} (h : ∀ k, ∀ x ∈ a k, x.2 = 1) : ∀ j, ∀ x ∈ push a k (id, 1) j, x.2 = 1 := by
  refine unit_put h ?_
  intro y hy
  rcases List.mem_cons.1 hy with rfl | hy
  · rfl
  · exact h k y hy

theorem bounds_ghost {gt eq : Nat → Bool} {b : Bool} {a a1 : Lists} {vs : Contents} (h : Bounds cs a) {k : Lst} (hk : ghost k = true) {x : ObjId × Nat} (hn : (a k).ids.Nodup) (hx : x ∈ a k)
    (hcap : (a .T1 ++ a .T2).length ≤ cs)
    (hev : EvictsAll (Replaces 0 gt eq b) (drop a k x) vs a1) (hp : (a .T1 ++ a .T2).Perm (vs ++ (a1 .T1 ++ a1 .T2))) (hfit : charge 0 (a1 .T1 ++ a1 .T2) + 1 + 0 ≤ cs)
    (hl : ∀ us v, vs = us ++ [v] → charge 0 (v :: (a1 .T1 ++ a1 .T2)) + 1 + 0 > cs) (id : ObjId) : Bounds cs (push a1 .T2 (id, 1)) := by
  have hd := h.drop hk hn hx
  have hfull : ¬ ((a .T1).length + (a .T2).length < cs) := by
    intro hlt
    obtain ⟨e1, e2⟩ := h.full hlt
    cases k with
    | T1 => simp [ghost] at hk
    | T2 => simp [ghost] at hk
    | B1 => rw [e1] at hx; cases hx
    | B2 => rw [e2] at hx; cases hx
  have hut : ∀ x ∈ a .T1 ++ a .T2, x.2 = 1 := by
    intro y hy
    rcases List.mem_append.1 hy with hy | hy
    · exact h.unit _ y hy
    · exact h.unit _ y hy
  have h1 := one_victim hut hp hcap hl
  have hu1 : ∀ x ∈ a1 .T1 ++ a1 .T2, x.2 = 1 := by
    intro y hy; apply hut; rw [hp.mem_iff]; exact List.mem_append_right _ hy
  rw [charge_unit hu1, List.length_append] at hfit
  have hlen := hp.length_eq
  simp only [List.length_append] at hlen
  have hdl := without_length hn hx
  match vs, hev with
  | [], _ => simp only [List.length_nil] at hlen; omega
  | [v], .one e (.none _) =>
    obtain ⟨r1, r2⟩ := Replaces.lengths e hd.unit
    have hsum : (Adaptive.drop a k x .T1).length + (Adaptive.drop a k x .T2).length + (Adaptive.drop a k x .B1).length + (Adaptive.drop a k x .B2).length + 1
        = (a .T1).length + (a .T2).length + (a .B1).length + (a .B2).length := by
      cases k with
      | T1 => simp [ghost] at hk
      | T2 => simp [ghost] at hk
      | B1 =>
        show (a .T1).length + (a .T2).length + (Lists.without x.1 (a .B1)).length + (a .B2).length + 1 = _
        omega
      | B2 =>
        show (a .T1).length + (a .T2).length + (a .B1).length + (Lists.without x.1 (a .B2)).length + 1 = _
        omega
    have hb1 := hd.l1
    have hb2 := h.total
    refine ⟨unit_push r1, ?_, ?_, ?_⟩
    · show (a1 .T1).length + (a1 .B1).length ≤ cs
      omega
    · show (a1 .T1).length + ((a1 .T2).length + 1) + (a1 .B1).length + (a1 .B2).length ≤ 2 * cs
      omega
    · intro hlt
      have hlt' : (a1 .T1).length + ((a1 .T2).length + 1) < cs := hlt
      simp only [List.length_cons, List.length_nil] at hlen
      omega
  | _ :: _ :: _, _ => simp at h1

theorem bounds_miss {gt eq : Nat → Bool} {b : Bool} {a a1 : Lists} {vs : Contents} (h : Bounds cs a) 
    (hcap : (a .T1 ++ a .T2).length ≤ cs)
    (hev : EvictsAll (MissEvicts cs 0 1 gt eq b) a vs a1) (hp : (a .T1 ++ a .T2).Perm (vs ++ (a1 .T1 ++ a1 .T2))) (hfit : charge 0 (a1 .T1 ++ a1 .T2) + 1 + 0 ≤ cs)
    (hl : ∀ us v, vs = us ++ [v] → charge 0 (v :: (a1 .T1 ++ a1 .T2)) + 1 + 0 > cs) (id : ObjId) : Bounds cs (push a1 .T1 (id, 1)) := by
  have hut : ∀ x ∈ a .T1 ++ a .T2, x.2 = 1 := by
    intro y hy
    rcases List.mem_append.1 hy with hy | hy
    · exact h.unit _ y hy
    · exact h.unit _ y hy
  have h1 := one_victim hut hp hcap hl
  have hu1 : ∀ x ∈ a1 .T1 ++ a1 .T2, x.2 = 1 := by
    intro y hy; apply hut; rw [hp.mem_iff]; exact List.mem_append_right _ hy
  rw [charge_unit hu1, List.length_append] at hfit
  have hlen := hp.length_eq
  simp only [List.length_append] at hlen hcap
  obtain ⟨b1, b2, b3, b4⟩ := h
  match vs, hev with
  | [], .none _ =>
    simp only [List.length_nil] at hlen
    obtain ⟨e1, e2⟩ := b4 (by omega)
    refine ⟨unit_push b1, ?_, ?_, ?_⟩
    · show ((a .T1).length + 1) + (a .B1).length ≤ cs
      rw [e1]; simp only [List.length_nil]; omega
    · show ((a .T1).length + 1) + (a .T2).length + (a .B1).length + (a .B2).length ≤ 2 * cs
      rw [e1, e2]; simp only [List.length_nil]; omega
    · intro _; exact ⟨e1, e2⟩
  | [v], .one e (.none _) =>
    simp only [List.length_cons, List.length_nil] at hlen
    have hv : cs < (a1 .T1).length + (a1 .T2).length + 1 + 1 := by
      have := hl [] v rfl
      rw [charge_unit (by
        intro y hy
        apply hut; rw [hp.mem_iff]
        rcases List.mem_cons.1 hy with rfl | hy
        · simp
        · exact List.mem_append_right _ hy)] at this
      simp only [List.length_cons, List.length_append] at this
      omega
    have fin : (∀ k, ∀ x ∈ a1 k, x.2 = 1) → (a1 .T1).length + (a1 .B1).length + 1 ≤ cs →
        (a1 .T1).length + (a1 .T2).length + (a1 .B1).length + (a1 .B2).length + 1 ≤ 2 * cs → Bounds cs (push a1 .T1 (id, 1)) := by
      intro q1 q2 q3
      refine ⟨unit_push q1, ?_, ?_, ?_⟩
      · show ((a1 .T1).length + 1) + (a1 .B1).length ≤ cs
        omega
      · show ((a1 .T1).length + 1) + (a1 .T2).length + (a1 .B1).length + (a1 .B2).length ≤ 2 * cs
        omega
      · intro hlt
        have hlt' : ((a1 .T1).length + 1) + (a1 .T2).length < cs := hlt
        omega
    have cu : ∀ k, bytes 0 (a k) = (a k).length := fun k => by rw [bytes_eq_charge, charge_unit (b1 k)]
    simp only [MissEvicts, cu] at e
    split at e
    · rename_i c1
      split at e
      · rename_i c2
        obtain ⟨y, a2, ⟨c, hc, rfl⟩, e⟩ := e
        have hul : ∀ k, ∀ x ∈ Adaptive.put a .B1 c k, x.2 = 1 := unit_put b1 (fun y hy => b1 .B1 y (by rw [hc]; simp [hy]))
        have hcl : (a .B1).length = c.length + 1 := by rw [hc]; simp
        obtain ⟨r1, r2⟩ := Replaces.lengths e hul
        have r2' : ((a1 .T1).length + 1 = (a .T1).length ∧ (a1 .B1).length = c.length + 1 ∧ (a1 .T2).length = (a .T2).length ∧ (a1 .B2).length = (a .B2).length) ∨
          ((a1 .T2).length + 1 = (a .T2).length ∧ (a1 .B2).length = (a .B2).length + 1 ∧ (a1 .T1).length = (a .T1).length ∧ (a1 .B1).length = c.length) := r2
        exact fin r1 (by omega) (by omega)
      · rename_i c2
        obtain ⟨c, hc, rfl⟩ := e
        have hul : ∀ k, ∀ x ∈ Adaptive.put a .T1 c k, x.2 = 1 := unit_put b1 (fun y hy => b1 .T1 y (by rw [hc]; simp [hy]))
        have hcl : (a .T1).length = c.length + 1 := by rw [hc]; simp
        apply fin hul
        · show c.length + (a .B1).length + 1 ≤ cs
          omega
        · show c.length + (a .T2).length + (a .B1).length + (a .B2).length + 1 ≤ 2 * cs
          omega
    · rename_i c1
      split at e
      · rename_i c2
        obtain ⟨y, a2, ⟨c, hc, rfl⟩, e⟩ := e
        have hul : ∀ k, ∀ x ∈ Adaptive.put a .B2 c k, x.2 = 1 := unit_put b1 (fun y hy => b1 .B2 y (by rw [hc]; simp [hy]))
        have hcl : (a .B2).length = c.length + 1 := by rw [hc]; simp
        obtain ⟨r1, r2⟩ := Replaces.lengths e hul
        have r2' : ((a1 .T1).length + 1 = (a .T1).length ∧ (a1 .B1).length = (a .B1).length + 1 ∧ (a1 .T2).length = (a .T2).length ∧ (a1 .B2).length = c.length) ∨
          ((a1 .T2).length + 1 = (a .T2).length ∧ (a1 .B2).length = c.length + 1 ∧ (a1 .T1).length = (a .T1).length ∧ (a1 .B1).length = (a .B1).length) := r2
        exact fin r1 (by omega) (by omega)
      · rename_i c2
        obtain ⟨r1, r2⟩ := Replaces.lengths e b1
        exact fin r1 (by omega) (by omega)
  | _ :: _ :: _, _ => simp at h1

theorem bounds_step {op : Op} {b : Bool} {s s' : State R} (hop : Calls calls (fun r => r.size = 1) op) (h : Inv cs 0 s ∧ Bounds cs (lists s))
    (hs : (algo R).step s op = .ok (b, s')) : Inv cs 0 s' ∧ Bounds cs (lists s') := by
  obtain ⟨hi, hb⟩ := h
  have hcap : (lists s .T1 ++ lists s .T2).length ≤ cs := by
    have := hi.abs.cap
    rw [charge_unit (hb.unit _), charge_unit (hb.unit _)] at this
    rw [List.length_append]; exact this
  cases op with
  | get r =>
    have hr : r.size = 1 := hop
    have hok : Requests cs 0 r := fun _ => by rw [hr]; decide
    obtain ⟨hi', hc⟩ := get_cases hi hok hs
    refine ⟨hi', ?_⟩
    rcases hc with ⟨k, x, h1, h2, h3, _, h4, _⟩ | ⟨k, x, h1, h2, h3, _, _, hc, _⟩ | ⟨h1, _, _, _, _, _, hc⟩
    · rw [h4]; exact hb.hit h1 (hi.abs.rep.nd k) h2
    · rcases hc with ⟨_, h4, _⟩ | ⟨_, vs, a1, h4, h5, h6, h7, h8, _⟩
      · rw [h4]; exact hb.drop h1 (hi.abs.rep.nd k) h2
      · rw [h5, hr]
        rw [hr] at h7 h8
        exact bounds_ghost hb h1 (hi.abs.rep.nd k) h2 hcap h4 (hi.abs.cached_perm.symm.trans h6) h7 h8 r.id
    · rcases hc with ⟨_, h4⟩ | ⟨_, vs, a1, h4, h5, h6, h7, h8⟩
      · rw [h4]; exact hb
      · rw [h5, hr]
        rw [hr] at h7 h8 h4
        exact bounds_miss hb hcap h4 (hi.abs.cached_perm.symm.trans h6) h7 h8 r.id
  | find r u =>
    have hu : u = true := by
      cases u with
      | true => rfl
      | false => cases hop
    subst hu
    obtain ⟨hi', _, hc⟩ := find_cases hi r hs
    refine ⟨hi', ?_⟩
    rcases hc with ⟨k, x, h1, h2, h3, _, h4, _⟩ | ⟨k, x, h1, h2, h3, _, h4, _⟩ | ⟨_, _, h4⟩
    · rw [h4]; exact hb.hit h1 (hi.abs.rep.nd k) h2
    · rw [h4]; exact hb.drop h1 (hi.abs.rep.nd k) h2
    · rw [h4]; exact hb
  | remove id => exact absurd hop (by simp [Calls])
  | evict r => exact absurd hop (by simp [Calls])
  | insert r => exact absurd hop (by simp [Calls])

theorem bounds_init (cs : Nat) (adm : Adm) : Bounds cs (lists (init cs 0 adm : State R)) := by
  have e : lists (init cs 0 adm : State R) = fun _ => [] := rfl
  rw [e]
  exact ⟨by simp, by simp, by simp, fun _ => ⟨rfl, rfl⟩⟩

/-! ### The range of `p` in exact arithmetic -/

/-- `0 ≤ p ≤ c` -/
def InRange (c : Nat) (p : Rat) : Prop := 0 ≤ p ∧ p ≤ (c : Rat)

theorem up_range {p : Rat} (x y : Int) {c : Nat} (h : InRange c p) : InRange c (Arith.exact.up p x y c) := by
  show InRange c (if y = 0 ∧ 0 < x then (c : Rat) else min (p + max ((x : Rat) / (y : Rat)) 1) (c : Rat))
  split
  · exact ⟨Nat.cast_nonneg c, le_refl _⟩
  · refine ⟨le_min ?_ (Nat.cast_nonneg c), min_le_right _ _⟩
    exact add_nonneg h.1 (le_trans zero_le_one (le_max_right _ _))

theorem down_range {p : Rat} (x y : Int) {c : Nat} (h : InRange c p) : InRange c (Arith.exact.down p x y) := by
  show InRange c (if y = 0 ∧ 0 < x then 0 else max (p - max ((x : Rat) / (y : Rat)) 1) 0)
  split
  · exact ⟨le_refl _, Nat.cast_nonneg c⟩
  · refine ⟨le_max_right _ _, max_le ?_ (Nat.cast_nonneg c)⟩
    have h2 : (0 : Rat) ≤ max ((x : Rat) / (y : Rat)) 1 := le_trans zero_le_one (le_max_right _ _)
    exact le_trans (sub_le_self p h2) h.2

theorem range_step {op : Op} {b : Bool} {s s' : State Arith.exact} (hop : Calls calls (Requests cs md) op)
    (h : Inv cs md s ∧ InRange cs s.p) (hs : (algo Arith.exact).step s op = .ok (b, s')) : Inv cs md s' ∧ InRange cs s'.p := by
  obtain ⟨hi, hp⟩ := h
  have ghost : ∀ k : Lst, InRange cs (if k = .B1 then Arith.exact.up s.p (charge md (lists s .B2) : Nat) (charge md (lists s .B1) : Nat) cs
          else Arith.exact.down s.p (charge md (lists s .B1) : Nat) (charge md (lists s .B2) : Nat)) := by
    intro k
    cases k with
    | B1 => exact up_range _ _ hp
    | B2 => exact down_range _ _ hp
    | T1 => exact down_range _ _ hp
    | T2 => exact down_range _ _ hp
  cases op with
  | get r =>
    obtain ⟨hi', hc⟩ := get_cases hi hop hs
    refine ⟨hi', ?_⟩
    rcases hc with ⟨k, x, h1, h2, h3, _, _, h4, _⟩ | ⟨k, x, h1, h2, h3, _, h4, _⟩ | ⟨h1, _, h4, _⟩
    · rw [h4]; exact hp
    · rw [h4]; exact ghost k
    · rw [h4]; exact hp
  | find r u =>
    have hu : u = true := by
      cases u with
      | true => rfl
      | false => cases hop
    subst hu
    obtain ⟨hi', _, hc⟩ := find_cases hi r hs
    refine ⟨hi', ?_⟩
    rcases hc with ⟨k, x, h1, h2, h3, _, _, h4⟩ | ⟨k, x, h1, h2, h3, _, _, h4⟩ | ⟨_, _, h4⟩
    · rw [h4]; exact hp
    · rw [h4]; exact ghost k
    · rw [h4]; exact hp
  | remove id => exact absurd hop (by simp [Calls])
  | evict r => exact absurd hop (by simp [Calls])
  | insert r => exact absurd hop (by simp [Calls])

/-! ### The flags -/

/-- `get`s of objects that fit and are admitted -/
def Admitted (cs md : Nat) (op : Op) : Prop := ∃ r : Req, op = .get r ∧ r.size + md ≤ cs ∧ r.size + md < u32

theorem flags_step {op : Op} {b : Bool} {s s' : State R} (hop : Admitted cs md op)
    (h : Inv cs md s ∧ s.base.adm = .none ∧ s.inB1 = false ∧ s.inB2 = false) (hs : (algo R).step s op = .ok (b, s')) :
    Inv cs md s' ∧ s'.base.adm = .none ∧ s'.inB1 = false ∧ s'.inB2 = false := by
  obtain ⟨hi, ha, h1, h2⟩ := h
  obtain ⟨r, rfl, hr1, hr2⟩ := hop
  have had : admitsBase s.base r = true := by
    rw [admitsBase, ha, hi.abs.mdz, hi.abs.csz, decide_eq_true hr1]; rfl
  have hnone : (s.base.adm.admit r).2 = .none := by rw [ha]; rfl
  obtain ⟨hi', hc⟩ := get_cases hi (fun _ => hr2) hs
  refine ⟨hi', ?_⟩
  rcases hc with ⟨k, x, _, _, _, _, _, _, h4, h5, h6⟩ | ⟨k, x, _, _, _, _, _, hc, h6⟩ | ⟨_, _, _, h4, h5, h6, _⟩
  · exact ⟨by rw [h6, ha], h4, h5⟩
  · rcases hc with ⟨hf, _⟩ | ⟨_, vs, a1, _, _, _, _, _, h4, h5⟩
    · rw [had] at hf; cases hf
    · exact ⟨by rw [h6, hnone], h4, h5⟩
  · exact ⟨by rw [h6, hnone], by rw [h4, h1], by rw [h5, h2]⟩

end Verif.ARC
