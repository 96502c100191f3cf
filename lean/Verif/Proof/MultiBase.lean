import Verif.Proof.SingleBase
import Verif.Spec.Multi
/-!
# Contract for algorithms with one `Base` whose `evict` may drop several objects
-/

namespace Verif
open Spec
variable {σ μ : Type}

/-- Obligations for a single-`Base` algorithm whose `evict` drops one or more objects of a non-empty cache. -/
structure SBMulti (A : Algo σ) (base : σ → Base μ) (setBase : σ → Base μ → σ) (Inv : σ → Prop)
    (cs md : Nat) (p : Perms := {}) (ok : Req → Prop := SizeOk md) : Prop where
  base_set : ∀ s b, base (setBase s b) = b
  occ : ∀ s, A.occ s = (base s).occ
  nObj : ∀ s, A.nObj s = (base s).nObj
  csz : ∀ s, A.cacheSize s = (base s).cacheSize
  mdz : ∀ s, A.md s = (base s).objMd
  bumpEq : ∀ s, A.bump s = setBase s (base s).bump
  canEq : ∀ s r, A.canInsert s r = (((base s).canInsertDefault r).1, setBase s ((base s).canInsertDefault r).2)
  fuel : ∀ s, (base s).tbl.length ≤ A.fuel s
  inv : ∀ {s}, Inv s → BInv cs md (base s)
  /-- the invariant does not look at the request counter or the admission policy -/
  frame : ∀ {s} (n : Nat) (a : Adm), Inv s → Inv (setBase s { base s with nReq := n, adm := a })
  findF : ∀ {s} (r), Inv s → A.find s r false = .ok (((base s).lookup r.id).isSome, s)
  findHit : ∀ {s} (r o), Inv s → (base s).lookup r.id = some o →
    ∃ s', A.find s r true = .ok (true, s') ∧ Inv s' ∧ (base s').cached.Perm (base s).cached
  findMiss : ∀ {s} (r), Inv s → (base s).lookup r.id = none → A.find s r true = .ok (false, s)
  evict : ∀ {s} (r), Inv s → (base s).tbl ≠ [] → EvWhen p ok cs md (base s) r →
    ∃ s' vs, A.evict s r = .ok s' ∧ Inv s' ∧ vs ≠ [] ∧ (base s).cached.Perm (vs ++ (base s').cached)
  insert : ∀ {s} (r), Inv s → (base s).lookup r.id = none → (base s).occ + r.size + md ≤ cs → ok r →
    ∃ s', A.insert s r = .ok s' ∧ Inv s' ∧ (base s').cached.Perm ((r.id, r.size % u32) :: (base s).cached)
  removeMiss : p.rem = true → ∀ {s} (id), Inv s → (base s).lookup id = none → A.remove s id = .ok (false, s)
  removeHit : p.rem = true → ∀ {s} (id o), Inv s → (base s).lookup id = some o →
    ∃ s', A.remove s id = .ok (true, s') ∧ Inv s' ∧ (base s).cached.Perm ((o.id, o.size) :: (base s').cached)

section
variable {A : Algo σ} {base : σ → Base μ} {setBase : σ → Base μ → σ} {Inv : σ → Prop} {cs md : Nat}
  {p : Perms} {ok : Req → Prop}

theorem SBSpec.multi (S : SBSpec A base setBase Inv cs md p ok) : SBMulti A base setBase Inv cs md p ok where
  base_set := S.base_set
  occ := S.occ
  nObj := S.nObj
  csz := S.csz
  mdz := S.mdz
  bumpEq := S.bumpEq
  canEq := S.canEq
  fuel := S.fuel
  inv := S.inv
  frame := S.frame
  findF := S.findF
  findHit := S.findHit
  findMiss := S.findMiss
  evict := fun {s} r hi hne hw => by
    obtain ⟨s', v, h1, h2, h3⟩ := S.evict r hi hne hw
    exact ⟨s', [v], h1, h2, by simp, h3⟩
  insert := S.insert
  removeMiss := S.removeMiss
  removeHit := S.removeHit

theorem SBMulti.removeFull (S : SBMulti A base setBase Inv cs md p ok) {s : σ} (id : ObjId) (hi : Inv s) (hp : p.rem = true := by rfl) :
    ∃ s', A.remove s id = .ok (decide (id ∈ (base s).cached.ids), s') ∧ Inv s' ∧
      (base s').cached.Perm ((base s).cached.filter (fun x => x.1 ≠ id)) := by
  cases h : (base s).lookup id with
  | none =>
    have hn := lookup_none_iff'.1 h
    refine ⟨s, by rw [S.removeMiss hp id hi h]; simp [Contents.ids, hn], hi, ?_⟩
    rw [filter_ids_eq hn]
  | some o =>
    obtain ⟨s', h1, h2, h3⟩ := S.removeHit hp id o hi h
    obtain ⟨hm, hid⟩ := lookup_some_mem h
    have hin : id ∈ (base s).cached.ids := by
      rw [Contents.ids, map_id_eq]; exact List.mem_map.2 ⟨o, hm, hid⟩
    refine ⟨s', by rw [h1]; simp [hin], h2, ?_⟩
    have hn : (base s).cached.ids.Nodup := by rw [Contents.ids, map_id_eq]; exact (S.inv hi).inv.nodup
    have := filter_cons_self hn h3
    rw [hid] at this
    exact this


/-- The contract in the form single-`Base` algorithms have it. -/
abbrev SBContract (A : Algo σ) (base : σ → Base μ) (Inv : σ → Prop) (cs md : Nat) (p : Perms := {}) (ok : Req → Prop := SizeOk md) : Prop :=
  Contract A (fun s => (base s).cached) Inv (fun _ r => r.size + md ≤ cs) (fun s => (base s).tbl.length) cs md p ok

theorem SBMulti.contract (S : SBMulti A base setBase Inv cs md p ok) : SBContract A base Inv cs md p ok where
  csz := fun h => by rw [S.csz]; exact (S.inv h).cs
  mdz := fun h => by rw [S.mdz]; exact (S.inv h).md
  nodup := fun h => by rw [Contents.ids, map_id_eq]; exact (S.inv h).inv.nodup
  occ := fun h => by rw [S.occ, (S.inv h).inv.occ_eq, (S.inv h).md]
  nObj := fun h => by rw [S.nObj, (S.inv h).inv.nObj_eq]; simp [Base.cached]
  cap := fun h => by rw [S.occ]; have := (S.inv h).inv.cap; rw [(S.inv h).cs] at this; exact this
  bump := fun {s} h => by
    rw [S.bumpEq, S.base_set]
    have := S.frame ((base s).nReq + 1) (base s).adm h
    exact ⟨this, rfl⟩
  findF := fun _ {s} r h => by rw [S.findF r h, lookup_isSome_iff]
  findHit := fun {s} r h hin _ => by
    have : ((base s).lookup r.id).isSome = true := by rw [lookup_isSome_iff]; simpa using hin
    obtain ⟨o, ho⟩ := Option.isSome_iff_exists.1 this
    obtain ⟨s', h1, h2, h3⟩ := S.findHit r o h ho
    exact ⟨s', h1, h2, h3.subperm⟩
  findMiss := fun {s} r h hn _ => by
    have hl := lookup_none_iff'.2 hn
    refine ⟨s, S.findMiss r h hl, h, List.Perm.refl _, ?_⟩
    rw [S.canEq, canInsertDefault_eq]
    have hfr := S.frame (base s).nReq ((base s).adm.admit r).2 h
    simp only [S.base_set]
    refine ⟨hfr, List.Perm.refl _, ?_⟩
    intro ha _
    simp only [admitsBase, Bool.and_eq_true, decide_eq_true_eq] at ha
    rw [(S.inv h).md, (S.inv h).cs] at ha
    exact ha.2
  fuel := fun {s} _ => S.fuel s
  evictLoop := fun {s} r h hok hr _ hme => by
    have hne : (base s).tbl ≠ [] := by
      intro h0
      simp only [Algo.mustEvict, decide_eq_true_eq] at hme
      rw [S.occ, S.csz, S.mdz, (S.inv h).inv.occ_eq, (S.inv h).cs, (S.inv h).md] at hme
      simp only [Base.cached, h0, List.map_nil, charge] at hme
      omega
    have hw : EvWhen p ok cs md (base s) r := by
      refine .inr ⟨hok, hr, ?_⟩
      simp only [Algo.mustEvict, decide_eq_true_eq] at hme
      rw [S.occ, S.csz, S.mdz, (S.inv h).cs, (S.inv h).md] at hme
      exact hme
    obtain ⟨s', vs, h1, h2, h0, h3⟩ := S.evict r h hne hw
    refine ⟨s', h1, h2, hr, ?_, ?_⟩
    · exact (List.Sublist.subperm (List.sublist_append_right _ _)).trans h3.symm.subperm
    · have := h3.length_eq
      have h0' := List.length_pos_of_ne_nil h0
      simp only [Base.cached, List.length_append, List.length_map] at this; omega
  insert := fun {s} r h hok _ hn hme => by
    simp only [Algo.mustEvict, decide_eq_false_iff_not, Int.not_lt] at hme
    rw [S.occ, S.csz, S.mdz, (S.inv h).cs, (S.inv h).md] at hme
    obtain ⟨s', h1, h2, h3⟩ := S.insert r h (lookup_none_iff'.2 hn) (by omega) hok
    exact ⟨s', h1, h2, h3.subperm⟩
  userInsert := fun _ {s} r h hok hn hme => by
    simp only [Algo.mustEvict, decide_eq_false_iff_not, Int.not_lt] at hme
    rw [S.occ, S.csz, S.mdz, (S.inv h).cs, (S.inv h).md] at hme
    obtain ⟨s', h1, h2, h3⟩ := S.insert r h (lookup_none_iff'.2 hn) (by omega) hok
    exact ⟨s', h1, h2, h3.subperm⟩
  remove := fun hp {s} id h => by
    obtain ⟨s', h1, h2, h3⟩ := S.removeFull id h hp
    exact ⟨_, s', h1, h2, h3.subperm.trans List.filter_sublist.subperm⟩
  evict := fun hp {s} r h hne => by
    obtain ⟨s', vs, h1, h2, _, h3⟩ := S.evict r h (by intro h0; simp [Base.cached, h0] at hne) (.inl hp)
    exact ⟨s', h1, h2, (List.Sublist.subperm (List.sublist_append_right _ _)).trans h3.symm.subperm⟩

theorem SBMulti.tbl_ne (S : SBMulti A base setBase Inv cs md p ok) {s : σ} (h : Inv s) {r : Req} (hr : r.size + md ≤ cs) (hme : A.mustEvict s r = true) :
    (base s).tbl ≠ [] ∧ (base s).occ + r.size + md > cs := by
  simp only [Algo.mustEvict, decide_eq_true_eq] at hme
  rw [S.occ, S.csz, S.mdz, (S.inv h).cs, (S.inv h).md] at hme
  refine ⟨fun h0 => ?_, hme⟩
  rw [(S.inv h).inv.occ_eq, (S.inv h).md] at hme
  simp only [Base.cached, h0, List.map_nil, charge] at hme
  omega

theorem SBMulti.loop (S : SBMulti A base setBase Inv cs md p ok) (r : Req) (hok : ok r) (hr : r.size + md ≤ cs) :
    ∀ n s, Inv s → (base s).tbl.length ≤ n →
      ∃ s' vs, A.evictLoop r n s = .ok s' ∧ Inv s' ∧ A.mustEvict s' r = false ∧ (base s).cached.Perm (vs ++ (base s').cached) ∧ (A.mustEvict s r = false → vs = []) := by
  intro n
  induction n with
  | zero =>
    intro s hi hn
    cases hme : A.mustEvict s r with
    | false => exact ⟨s, [], by simp [Algo.evictLoop, hme], hi, hme, by simp, by simp⟩
    | true => exact absurd (List.length_eq_zero_iff.1 (by omega)) (S.tbl_ne hi hr hme).1
  | succ n ih =>
    intro s hi hn
    cases hme : A.mustEvict s r with
    | false => exact ⟨s, [], by simp [Algo.evictLoop, hme], hi, hme, by simp, by simp⟩
    | true =>
      obtain ⟨hne, hocc⟩ := S.tbl_ne hi hr hme
      obtain ⟨s1, us, he, hi1, h0, hp1⟩ := S.evict r hi hne (.inr ⟨hok, hr, hocc⟩)
      have hl := hp1.length_eq
      have h0' := List.length_pos_of_ne_nil h0
      simp only [Base.cached, List.length_append, List.length_map] at hl
      obtain ⟨s', vs, k1, k2, k3, k4, _⟩ := ih s1 hi1 (by omega)
      refine ⟨s', us ++ vs, by simp [Algo.evictLoop, hme, he, k1], k2, k3, ?_, by simp⟩
      rw [List.append_assoc]
      exact hp1.trans (k4.append_left us)

/-- A miss in detail. -/
theorem SBMulti.miss (S : SBMulti A base setBase Inv cs md p ok) {s : σ} (r : Req) (hok : ok r) (hi : Inv s) (hn : r.id ∉ (base s).cached.ids) :
    (admitsBase (base s) r = false ∧ A.get s r = .ok (false, setBase (A.bump s) { base (A.bump s) with adm := ((base s).adm.admit r).2 })) ∨
    (admitsBase (base s) r = true ∧ ∃ s' vs kept, A.get s r = .ok (false, s') ∧ Inv s' ∧ (base s).cached.Perm (vs ++ kept) ∧
      (base s').cached.Perm ((r.id, r.size % u32) :: kept) ∧ (vs ≠ [] → charge md (base s).cached + r.size + md > cs)) := by
  have hbb : base (A.bump s) = (base s).bump := by rw [S.bumpEq, S.base_set]
  have hib : Inv (A.bump s) := by rw [S.bumpEq]; exact S.frame ((base s).nReq + 1) (base s).adm hi
  have hlb : (base (A.bump s)).lookup r.id = none := by rw [hbb]; exact lookup_none_iff'.2 hn
  have hf := S.findMiss r hib hlb
  have hcan : A.canInsert (A.bump s) r =
      (admitsBase (base s) r, setBase (A.bump s) { base (A.bump s) with adm := ((base s).adm.admit r).2 }) := by
    rw [S.canEq, canInsertDefault_eq, hbb]; rfl
  have hi2 : Inv (setBase (A.bump s) { base (A.bump s) with adm := ((base s).adm.admit r).2 }) :=
    S.frame (base (A.bump s)).nReq _ hib
  have hb2 := S.base_set (A.bump s) { base (A.bump s) with adm := ((base s).adm.admit r).2 }
  cases had : admitsBase (base s) r with
  | false => rw [had] at hcan; exact .inl ⟨rfl, get_reject hf hcan⟩
  | true =>
    refine .inr ⟨rfl, ?_⟩
    rw [had] at hcan
    generalize setBase (A.bump s) { base (A.bump s) with adm := ((base s).adm.admit r).2 } = s2 at *
    have hr : r.size + md ≤ cs := by
      simp only [admitsBase, (S.inv hi).cs, (S.inv hi).md, Bool.and_eq_true, decide_eq_true_eq] at had
      exact had.2
    have hc2 : (base s2).cached = (base s).cached := by rw [hb2, hbb]; rfl
    obtain ⟨s3, vs, k1, k2, k3, k4, k5⟩ := S.loop r hok hr (A.fuel s2) s2 hi2 (S.fuel s2)
    rw [hc2] at k4
    have hn3 : (base s3).lookup r.id = none := by
      apply lookup_none_iff'.2
      refine notMem_ids_of_subperm ?_ hn
      exact (List.Sublist.subperm (List.sublist_append_right _ _)).trans k4.symm.subperm
    simp only [Algo.mustEvict, decide_eq_false_iff_not, Int.not_lt] at k3
    rw [S.occ, S.csz, S.mdz, (S.inv k2).cs, (S.inv k2).md] at k3
    obtain ⟨s4, l1, l2, l3⟩ := S.insert r k2 hn3 (by omega) hok
    refine ⟨s4, vs, (base s3).cached, get_accept hf hcan k1 l1, l2, k4, l3, fun hv => ?_⟩
    cases hme : A.mustEvict s2 r with
    | false => exact absurd (k5 hme) hv
    | true =>
      have := (S.tbl_ne hi2 hr hme).2
      rw [(S.inv hi2).inv.occ_eq, (S.inv hi2).md, hc2] at this
      omega

variable {s0 : σ}

theorem SBMulti.admittedMissCached (S : SBMulti A base setBase Inv cs md p ok) (h0 : Inv s0) :
    AdmittedMissCached A (fun s => (base s).cached) (fun s r => admitsBase (base s) r) s0 (Calls p ok) := by
  intro ops out s ho h r hr hn ha
  have hi := S.contract.reach h0 ho h
  rcases S.miss r hr hi hn with ⟨hf, _⟩ | ⟨_, s', vs, kept, h1, _, _, h2, _⟩
  · have ha' : admitsBase (base s) r = true := ha
    rw [hf] at ha'; cases ha'
  · exact ⟨s', h1, h2.symm.subset (by simp)⟩

theorem SBMulti.rejectQuiet {κ : Type} (S : SBMulti A base setBase Inv cs md p ok) (h0 : Inv s0) (core : σ → κ)
    (hc : ∀ s n a, core (setBase s { base s with nReq := n, adm := a }) = core s) :
    RejectQuiet A (fun s => (base s).cached) (fun s r => admitsBase (base s) r) core s0 (Calls p ok) := by
  intro ops out s ho h r hr hn ha
  have hi := S.contract.reach h0 ho h
  rcases S.miss r hr hi hn with ⟨_, h1⟩ | ⟨ht, _⟩
  · refine ⟨_, h1, ?_⟩
    rw [hc (A.bump s) (base (A.bump s)).nReq, S.bumpEq]
    exact hc s ((base s).nReq + 1) (base s).adm
  · have ha' : admitsBase (base s) r = false := ha
    rw [ht] at ha'; cases ha'

theorem SBMulti.evictIfNeeded (S : SBMulti A base setBase Inv cs md p ok) (h0 : Inv s0) :
    EvictIfNeeded A (fun s => (base s).cached) s0 (Calls p ok) cs md := by
  intro ops out s ho h r b s' hr hg
  have hi := S.contract.reach h0 ho h
  have hbb : base (A.bump s) = (base s).bump := by rw [S.bumpEq, S.base_set]
  have hib : Inv (A.bump s) := by rw [S.bumpEq]; exact S.frame ((base s).nReq + 1) (base s).adm hi
  cases hl : (base s).lookup r.id with
  | some o =>
    obtain ⟨s1, h1, _, h3⟩ := S.findHit r o hib (by rw [hbb]; exact hl)
    rw [get_hit h1] at hg
    cases hg
    rw [hbb] at h3
    exact ⟨fun _ => h3, by simp⟩
  | none =>
    rcases S.miss r hr hi (lookup_none_iff'.1 hl) with ⟨_, h1⟩ | ⟨_, s1, vs, kept, h1, _, hp, hp', hmin⟩
    · rw [h1] at hg; cases hg
      refine ⟨by simp, fun _ => ⟨[], (base s).cached, by simp, .inl ?_, by simp⟩⟩
      simp only [S.base_set]
      rw [hbb]
      exact List.Perm.refl _
    · rw [h1] at hg; cases hg
      exact ⟨by simp, fun _ => ⟨vs, kept, hp, .inr hp', fun hv => by rw [bytes_eq_charge]; exact hmin hv⟩⟩

theorem SBMulti.evictsSome (S : SBMulti A base setBase Inv cs md p ok) (h0 : Inv s0) (hp : p.ev = true) :
    EvictsSome A (fun s => (base s).cached) s0 (Calls p ok) := by
  intro ops out s ho h hne r
  obtain ⟨s', vs, h1, _, h2, h3⟩ := S.evict r (S.contract.reach h0 ho h) (by intro e; simp [Base.cached, e] at hne) (.inl hp)
  exact ⟨vs, s', h1, h2, h3⟩

theorem SBMulti.noPhantom (S : SBMulti A base setBase Inv cs md p ok) (h0 : Inv s0) (he : (base s0).cached = []) :
    NoPhantom A (fun s => (base s).cached) s0 (Calls p ok) :=
  S.contract.noPhantom h0 he (fun hp {s s' b} id h he => by
    obtain ⟨s'', h1, h2, h3⟩ := S.removeFull id h hp
    rw [h1] at he
    cases he
    intro hx
    obtain ⟨x, hx', rfl⟩ := List.mem_map.1 hx
    have := h3.subset hx'
    simp at this)

end
end Verif
