import Verif.Proof.MultiBase
import Verif.Spec.Clocked
import Verif.Proof.Sim
/-!
# Simulation of a textbook discipline with a clock by a single-`Base` algorithm
-/

namespace Verif
open Spec
variable {σ μ τ : Type}

structure CSim (A : Algo σ) (base : σ → Base μ) (setBase : σ → Base μ → σ) (Inv : σ → Prop)
    (cs md : Nat) (D : Nat → Discipline τ) (view : σ → τ) (p : Perms := {}) (ok : Req → Prop := SizeOk md) : Prop where
  contents : ∀ {s} (n : Nat), Inv s → ((D n).contents (view s)).Perm (base s).cached
  frame : ∀ s n a, view (setBase s { base s with nReq := n, adm := a }) = view s
  findHit : ∀ {s s'} (r o), Inv s → (base s).lookup r.id = some o → A.find s r true = .ok (true, s') →
    view s' = (D (base s).nReq).onHit (view s) r ∧ (base s').adm = (base s).adm ∧ (base s').nReq = (base s).nReq
  evict : ∀ {s s'} (r), Inv s → (base s).tbl ≠ [] → A.evict s r = .ok s' →
    view s' = (D (base s).nReq).evict (view s) ∧ (base s').adm = (base s).adm ∧ (base s').nReq = (base s).nReq
  insert : ∀ {s s'} (r), Inv s → (base s).lookup r.id = none → (base s).occ + r.size + md ≤ cs → ok r →
    A.insert s r = .ok s' → view s' = (D (base s).nReq).insert (view s) r ∧ (base s').adm = (base s).adm ∧ (base s').nReq = (base s).nReq
  remove : p.rem = true → ∀ {s s'} (id o), Inv s → (base s).lookup id = some o → A.remove s id = .ok (true, s') →
    view s' = (D (base s).nReq).remove (view s) id ∧ (base s').adm = (base s).adm ∧ (base s').nReq = (base s).nReq

section
variable {A : Algo σ} {base : σ → Base μ} {setBase : σ → Base μ → σ} {Inv : σ → Prop} {cs md : Nat}
  {D : Nat → Discipline τ} {view : σ → τ} {p : Perms} {ok : Req → Prop}

/-- The textbook state an implementation state stands for, with the clock. -/
abbrev cview (base : σ → Base μ) (view : σ → τ) (s : σ) : CState τ := ⟨(base s).nReq, tview base view s⟩

theorem CSim.ids (M : CSim A base setBase Inv cs md D view p ok) {s : σ} (n : Nat) (h : Inv s) (id : ObjId) :
    id ∈ ((D n).contents (view s)).ids ↔ id ∈ (base s).cached.ids :=
  ((M.contents n h).map Prod.fst).mem_iff

theorem CSim.holds (M : CSim A base setBase Inv cs md D view p ok) {s : σ} (n : Nat) (h : Inv s) (id : ObjId) :
    Spec.holds (D n) (tview base view s) id = decide (id ∈ (base s).cached.ids) := by
  simp only [Spec.holds, tview, M.ids n h]

theorem CSim.bytes (M : CSim A base setBase Inv cs md D view p ok) {s : σ} (n : Nat) (h : Inv s) :
    Spec.bytes md ((D n).contents (view s)) = charge md (base s).cached := by
  rw [bytes_eq_charge]; exact charge_perm (M.contents n h)

theorem CSim.loop (S : SBMulti A base setBase Inv cs md p ok) (M : CSim A base setBase Inv cs md D view p ok) (r : Req)
    (k : Nat) (hfit : r.size + md ≤ cs) (hok : ok r) :
    ∀ n m s, Inv s → (base s).nReq = k → (base s).tbl.length ≤ n → (base s).tbl.length ≤ m →
      ∃ s', A.evictLoop r n s = .ok s' ∧ Inv s' ∧ view s' = makeRoom (D k) cs md (r.size + md) m (view s) ∧
        (base s').adm = (base s).adm ∧ (base s').nReq = k ∧ (base s').cached.Subperm (base s).cached ∧
        (base s').occ + r.size + md ≤ cs := by
  intro n
  induction n with
  | zero =>
    intro m s hi hk hn hm
    have h0 : (base s).tbl = [] := List.length_eq_zero_iff.1 (by omega)
    have hb := M.bytes k hi
    have hc : charge md (base s).cached = 0 := by simp [Base.cached, h0, charge]
    have hocc : (base s).occ = 0 := by rw [(S.inv hi).inv.occ_eq, (S.inv hi).md, hc]; rfl
    have hme : A.mustEvict s r = false := by
      simp only [Algo.mustEvict, decide_eq_false_iff_not, Int.not_lt]
      rw [S.occ, S.csz, S.mdz, (S.inv hi).cs, (S.inv hi).md, hocc]; omega
    refine ⟨s, by simp [Algo.evictLoop, hme], hi, ?_, rfl, hk, List.Subperm.refl _, by rw [hocc]; omega⟩
    cases m with
    | zero => rfl
    | succ m => simp only [makeRoom, hb, hc, Nat.zero_add, hfit, if_true]
  | succ n ih =>
    intro m s hi hk hn hm
    have hb := M.bytes k hi
    have hocc : (base s).occ = (charge md (base s).cached : Nat) := by rw [(S.inv hi).inv.occ_eq, (S.inv hi).md]
    cases hme : A.mustEvict s r with
    | false =>
      have hle : charge md (base s).cached + (r.size + md) ≤ cs := by
        simp only [Algo.mustEvict, decide_eq_false_iff_not, Int.not_lt] at hme
        rw [S.occ, S.csz, S.mdz, (S.inv hi).cs, (S.inv hi).md, hocc] at hme; omega
      refine ⟨s, by simp [Algo.evictLoop, hme], hi, ?_, rfl, hk, List.Subperm.refl _, by rw [hocc]; omega⟩
      cases m with
      | zero => rfl
      | succ m => simp only [makeRoom, hb, hle, if_true]
    | true =>
      have hgt : ¬ charge md (base s).cached + (r.size + md) ≤ cs := by
        simp only [Algo.mustEvict, decide_eq_true_eq] at hme
        rw [S.occ, S.csz, S.mdz, (S.inv hi).cs, (S.inv hi).md, hocc] at hme; omega
      have hne : (base s).tbl ≠ [] := by
        intro h0
        apply hgt
        simp only [Base.cached, h0, List.map_nil, charge]; omega
      obtain ⟨s1, vs, he, hi1, h0, hp1⟩ := S.evict r hi hne (.inr ⟨hok, hfit, by rw [hocc]; omega⟩)
      obtain ⟨hv, ha, hq⟩ := M.evict r hi hne he
      rw [hk] at hv hq
      have hl := hp1.length_eq
      have h0' := List.length_pos_of_ne_nil h0
      simp only [Base.cached, List.length_append, List.length_map] at hl
      cases m with
      | zero => omega
      | succ m =>
        obtain ⟨s', k1, k2, k3, k4, k7, k5, k6⟩ := ih m s1 hi1 hq (by omega) (by omega)
        refine ⟨s', by simp [Algo.evictLoop, hme, he, k1], k2, ?_, k4.trans ha, k7, ?_, k6⟩
        · rw [k3, hv]; simp only [makeRoom, hb, hgt, if_false]
        · exact k5.trans ((List.Sublist.subperm (List.sublist_append_right _ _)).trans hp1.symm.subperm)

theorem CSim.step (S : SBMulti A base setBase Inv cs md p ok) (M : CSim A base setBase Inv cs md D view p ok) {s : σ}
    (op : Op) (hop : Calls p ok op) (hi : Inv s) :
    ∃ b s', A.step s op = .ok (b, s') ∧ Inv s' ∧
      cstep D cs md (cview base view s) op = (b, cview base view s') := by
  have hbv : ∀ s, view (A.bump s) = view s := fun s => by
    rw [S.bumpEq]; exact M.frame s ((base s).nReq + 1) (base s).adm
  have hbb : ∀ s, base (A.bump s) = (base s).bump := fun s => by rw [S.bumpEq, S.base_set]
  have hib : ∀ {s}, Inv s → Inv (A.bump s) := fun {s} h => by
    rw [S.bumpEq]; exact S.frame ((base s).nReq + 1) (base s).adm h
  cases op with
  | get r =>
    simp only [Algo.step, cstep, tget, M.holds ((base s).nReq + 1) hi]
    cases hl : (base s).lookup r.id with
    | some o =>
      have hin : r.id ∈ (base s).cached.ids := by
        have : ((base s).lookup r.id).isSome = true := by simp [hl]
        rw [lookup_isSome_iff] at this; simpa using this
      have hlb : (base (A.bump s)).lookup r.id = some o := by rw [hbb]; exact hl
      obtain ⟨s', h1, h2, h3⟩ := S.findHit r o (hib hi) hlb
      obtain ⟨h4, h5, h6⟩ := M.findHit r o (hib hi) hlb h1
      refine ⟨true, s', get_hit h1, h2, ?_⟩
      simp only [hin, decide_true, if_true, tview, cview]
      rw [h4, h5, h6, hbv, hbb]; rfl
    | none =>
      have hin : r.id ∉ (base s).cached.ids := lookup_none_iff'.1 hl
      have hlb : (base (A.bump s)).lookup r.id = none := by rw [hbb]; exact hl
      have hf := S.findMiss r (hib hi) hlb
      have hcan : A.canInsert (A.bump s) r =
          (admitsBase (base s) r, setBase (A.bump s) { base (A.bump s) with adm := ((base s).adm.admit r).2 }) := by
        rw [S.canEq, canInsertDefault_eq, hbb]; rfl
      have hi2 : Inv (setBase (A.bump s) { base (A.bump s) with adm := ((base s).adm.admit r).2 }) :=
        S.frame (base (A.bump s)).nReq _ (hib hi)
      have hv2 : view (setBase (A.bump s) { base (A.bump s) with adm := ((base s).adm.admit r).2 }) = view s :=
        (M.frame (A.bump s) (base (A.bump s)).nReq _).trans (hbv s)
      have hb2 := S.base_set (A.bump s) { base (A.bump s) with adm := ((base s).adm.admit r).2 }
      generalize setBase (A.bump s) { base (A.bump s) with adm := ((base s).adm.admit r).2 } = s2 at *
      simp only [hin, decide_false, Bool.false_eq_true, if_false]
      cases had : admitsBase (base s) r with
      | false =>
        rw [had] at hcan
        refine ⟨false, s2, get_reject hf hcan, hi2, ?_⟩
        have : ¬ (((tview base view s).adm.admit r).1 = true ∧ r.size + md ≤ cs) := by
          simp only [admitsBase, (S.inv hi).cs, (S.inv hi).md] at had
          simp only [tview]; intro hh; simp [hh.1, hh.2] at had
        simp only [if_neg this]
        simp only [tview, cview, hv2, hb2]; rw [hbb]; rfl
      | true =>
        rw [had] at hcan
        have hcond : ((tview base view s).adm.admit r).1 = true ∧ r.size + md ≤ cs := by
          simp only [admitsBase, (S.inv hi).cs, (S.inv hi).md, Bool.and_eq_true, decide_eq_true_eq] at had
          exact had
        have hlen : (base s2).tbl.length = (base s).tbl.length := by rw [hb2, hbb]; rfl
        have hlenc : ((D ((base s).nReq + 1)).contents (view s)).length = (base s).tbl.length := by
          rw [(M.contents _ hi).length_eq]; simp [Base.cached]
        obtain ⟨s3, k1, k2, k3, k4, k7, k5, k6⟩ := CSim.loop S M r ((base s).nReq + 1) hcond.2 hop (A.fuel s2) (base s).tbl.length s2 hi2 (by rw [hb2, hbb]; rfl)
          (S.fuel s2) (by omega)
        have hn3 : (base s3).lookup r.id = none := by
          apply lookup_none_iff'.2
          refine notMem_ids_of_subperm k5 ?_
          rw [hb2, hbb]; exact hin
        obtain ⟨s4, l1, l2, _⟩ := S.insert r k2 hn3 k6 hop
        obtain ⟨l4, l5, l6⟩ := M.insert r k2 hn3 k6 hop l1
        refine ⟨false, s4, get_accept hf hcan k1 l1, l2, ?_⟩
        simp only [if_pos hcond]
        simp only [tview, cview]
        rw [l4, k3, l5, k4, l6, k7, hv2, hb2, hlenc]
  | find r u =>
    simp only [Algo.step, cstep, tstep, M.holds (base s).nReq hi]
    cases hl : (base s).lookup r.id with
    | some o =>
      have hin : r.id ∈ (base s).cached.ids := by
        have : ((base s).lookup r.id).isSome = true := by simp [hl]
        rw [lookup_isSome_iff] at this; simpa using this
      cases u with
      | false => exact ⟨true, s, by rw [S.findF r hi, hl]; rfl, hi, by simp [hin]⟩
      | true =>
        obtain ⟨s', h1, h2, h3⟩ := S.findHit r o hi hl
        obtain ⟨h4, h5, h6⟩ := M.findHit r o hi hl h1
        refine ⟨true, s', h1, h2, ?_⟩
        simp only [hin, decide_true, and_self, if_true, tview, cview, h4, h5, h6]
    | none =>
      have hin : r.id ∉ (base s).cached.ids := lookup_none_iff'.1 hl
      cases u with
      | false => exact ⟨false, s, by rw [S.findF r hi, hl]; rfl, hi, by simp [hin]⟩
      | true => exact ⟨false, s, S.findMiss r hi hl, hi, by simp [hin]⟩
  | remove id =>
    simp only [Algo.step, cstep, tstep, M.holds (base s).nReq hi]
    cases hl : (base s).lookup id with
    | some o =>
      have hin : id ∈ (base s).cached.ids := by
        have : ((base s).lookup id).isSome = true := by simp [hl]
        rw [lookup_isSome_iff] at this; simpa using this
      obtain ⟨s', h1, h2, h3⟩ := S.removeHit hop id o hi hl
      obtain ⟨h4, h5, h6⟩ := M.remove hop id o hi hl h1
      refine ⟨true, s', h1, h2, ?_⟩
      simp only [hin, decide_true, if_true, tview, cview, h4, h5, h6]
    | none =>
      have hin : id ∉ (base s).cached.ids := lookup_none_iff'.1 hl
      exact ⟨false, s, S.removeMiss hop id hi hl, hi, by simp [hin]⟩
  | evict r =>
    simp only [Algo.step, cstep, tstep]
    have hnil : (D (base s).nReq).contents (tview base view s).pol = [] ↔ (base s).tbl = [] := by
      have := (M.contents (base s).nReq hi).length_eq
      simp only [Base.cached, List.length_map] at this
      rw [← List.length_eq_zero_iff, ← List.length_eq_zero_iff]
      simp only [tview]; omega
    have hn := (S.inv hi).inv.nObj_eq
    by_cases h0 : (base s).tbl = []
    · refine ⟨false, s, ?_, hi, ?_⟩
      · rw [if_neg]; rw [S.nObj, hn, h0]; simp
      · simp only [if_pos (hnil.2 h0)]
    · obtain ⟨s', v, h1, h2, _, h3⟩ := S.evict r hi h0 (.inl hop)
      obtain ⟨h4, h5, h6⟩ := M.evict r hi h0 h1
      refine ⟨true, s', ?_, h2, ?_⟩
      · have : (base s).tbl.length ≠ 0 := fun e => h0 (List.length_eq_zero_iff.1 e)
        rw [if_pos (by rw [S.nObj, hn]; omega), h1]; rfl
      · simp only [if_neg (fun e => h0 (hnil.1 e))]; simp only [tview, cview, h4, h5, h6]
  | insert r =>
    simp only [Algo.step, cstep, tstep, M.holds (base s).nReq hi]
    have hocc : (base s).occ = (charge md (base s).cached : Nat) := by rw [(S.inv hi).inv.occ_eq, (S.inv hi).md]
    have hb := M.bytes (base s).nReq hi
    rw [S.findF r hi, Res.bind_ok]
    cases hl : (base s).lookup r.id with
    | some o =>
      have hin : r.id ∈ (base s).cached.ids := by
        have : ((base s).lookup r.id).isSome = true := by simp [hl]
        rw [lookup_isSome_iff] at this; simpa using this
      exact ⟨false, s, by simp, hi, by simp [hin]⟩
    | none =>
      have hin : r.id ∉ (base s).cached.ids := lookup_none_iff'.1 hl
      cases hme : A.mustEvict s r with
      | true =>
        refine ⟨false, s, by simp, hi, ?_⟩
        simp only [Algo.mustEvict, decide_eq_true_eq] at hme
        rw [S.occ, S.csz, S.mdz, (S.inv hi).cs, (S.inv hi).md, hocc] at hme
        rw [if_neg]
        simp only [tview, hb]; omega
      | false =>
        simp only [Algo.mustEvict, decide_eq_false_iff_not, Int.not_lt] at hme
        rw [S.occ, S.csz, S.mdz, (S.inv hi).cs, (S.inv hi).md] at hme
        obtain ⟨s', h1, h2, h3⟩ := S.insert r hi hl (by omega) hop.2
        obtain ⟨h4, h5, h6⟩ := M.insert r hi hl (by omega) hop.2 h1
        refine ⟨true, s', ?_, h2, ?_⟩
        · simp [h1]
        · rw [hocc] at hme
          rw [if_pos]
          · simp only [tview, cview, h4, h5, h6]
          · simp only [tview, hb, hin, decide_false, true_and]; omega

theorem CSim.follows (S : SBMulti A base setBase Inv cs md p ok) (M : CSim A base setBase Inv cs md D view p ok) {s0 : σ}
    (h0 : Inv s0) :
    FollowsClocked A s0 (Calls p ok) D cs md (cview base view s0) (cview base view) := by
  intro ops
  induction ops generalizing s0 with
  | nil => intro _; exact ⟨[], s0, rfl, rfl⟩
  | cons op ops ih =>
    intro ho
    obtain ⟨b, s1, h1, h2, h3⟩ := CSim.step S M op (ho op (by simp)) h0
    obtain ⟨out, s, h4, h5⟩ := ih h2 (fun o h => ho o (by simp [h]))
    refine ⟨b :: out, s, ?_, ?_⟩
    · simp only [Reaches] at h4 ⊢
      simp [Algo.run, h1, h4]
    · simp only [crun, h3, h5]

end
end Verif
