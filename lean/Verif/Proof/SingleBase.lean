import Verif.Base.Contract
/-!
# Contract for algorithms with one `Base` and default `can_insert`
-/

namespace Verif
open Spec
variable {σ μ : Type}

theorem canInsertDefault_eq (b : Base μ) (r : Req) :
    b.canInsertDefault r = (admitsBase b r, { b with adm := (b.adm.admit r).2 }) := by
  unfold Base.canInsertDefault admitsBase
  cases h : (b.adm.admit r).1 <;> simp
  split <;> simp_all

theorem filter_ids_eq {c : Contents} {id : ObjId} (h : id ∉ c.ids) :
    c.filter (fun x => x.1 ≠ id) = c := by
  rw [List.filter_eq_self]
  intro x hx
  simp only [ne_eq, decide_not, Bool.not_eq_eq_eq_not, Bool.not_true, decide_eq_false_iff_not]
  intro e
  exact h (List.mem_map.2 ⟨x, hx, e⟩)

theorem filter_cons_self {c c' : Contents} {x : ObjId × Nat} (hn : c.ids.Nodup) (h : c.Perm (x :: c')) :
    c'.Perm (c.filter (fun y => y.1 ≠ x.1)) := by
  have hn' : Contents.ids (x :: c') |>.Nodup := (h.map Prod.fst).nodup_iff.1 hn
  simp only [Contents.ids, List.map_cons, List.nodup_cons] at hn'
  have := h.filter (fun y => decide (y.1 ≠ x.1))
  refine List.Perm.symm (this.trans ?_)
  rw [List.filter_cons_of_neg (by simp)]
  rw [filter_ids_eq hn'.1]

/-- Shared invariant plus the fixed configuration. -/
structure BInv (cs md : Nat) (b : Base μ) : Prop where
  inv : BaseInv b
  cs : b.cacheSize = cs
  md : b.objMd = md

theorem BInv.setAdm {cs md : Nat} {b : Base μ} (h : BInv cs md b) (a : Adm) : BInv cs md { b with adm := a } :=
  ⟨⟨h.inv.nodup, h.inv.occ_eq, h.inv.nObj_eq, h.inv.cap, h.inv.small⟩, h.cs, h.md⟩

theorem BInv.bump {cs md : Nat} {b : Base μ} (h : BInv cs md b) : BInv cs md b.bump :=
  ⟨⟨h.inv.nodup, h.inv.occ_eq, h.inv.nObj_eq, h.inv.cap, h.inv.small⟩, h.cs, h.md⟩

theorem BInv.modify {cs md : Nat} {b : Base μ} (h : BInv cs md b) (id : ObjId) (f : Obj μ → Obj μ)
    (hid : ∀ o, (f o).id = o.id) (hsz : ∀ o, (f o).size = o.size) : BInv cs md (b.modify id f) :=
  ⟨h.inv.modify id f hid hsz, h.cs, h.md⟩

theorem BInv.insert {cs md : Nat} {b : Base μ} (h : BInv cs md b) (z : μ) (r : Req)
    (hnew : r.id ∉ b.cached.map Prod.fst) (hroom : b.occ + r.size + md ≤ cs) (hsm : SizeOk md r) :
    BInv cs md (b.insertBase z r) := by
  refine ⟨h.inv.insert z r hnew ?_ ?_, h.cs, h.md⟩
  · rw [h.md, h.cs]; exact hroom
  · rw [h.md]; exact hsm

theorem BInv.remove {cs md : Nat} {b : Base μ} (h : BInv cs md b) {id : ObjId} {o : Obj μ}
    (ho : b.lookup id = some o) :
    ∃ b', b.removeObjBase id = .ok b' ∧ BInv cs md b' ∧ b'.tbl = b.tbl.eraseP (fun o => o.id == id) ∧
      b.tbl.Perm (o :: b'.tbl) ∧ b.cached.Perm ((o.id, o.size) :: b'.cached) ∧ b'.adm = b.adm ∧
      b'.nReq = b.nReq := by
  obtain ⟨b', h1, h2, h3, h4, h5, h6, h7, h8⟩ := h.inv.remove ho
  exact ⟨b', h1, ⟨h2, h5.trans h.cs, h6.trans h.md⟩, h3, h4, by simpa [Base.cached] using h4.map (fun o => (o.id, o.size)), h8, h7⟩

/-- When `evict` is called: by the client (if permitted), or by `get` because the requested object does not fit. -/
def EvWhen (p : Perms) (ok : Req → Prop) (cs md : Nat) (b : Base μ) (r : Req) : Prop :=
  p.ev = true ∨ (ok r ∧ r.size + md ≤ cs ∧ b.occ + r.size + md > cs)

/-- The parts of the function table that every single-`Base` algorithm with default `can_insert` shares. -/
structure Plain (A : Algo σ) (base : σ → Base μ) (setBase : σ → Base μ → σ) (Inv : σ → Prop) (cs md : Nat) : Prop where
  base_set : ∀ s b, base (setBase s b) = b
  occ : ∀ s, A.occ s = (base s).occ
  nObj : ∀ s, A.nObj s = (base s).nObj
  csz : ∀ s, A.cacheSize s = (base s).cacheSize
  mdz : ∀ s, A.md s = (base s).objMd
  bumpEq : ∀ s, A.bump s = setBase s (base s).bump
  canEq : ∀ s r, A.canInsert s r = (((base s).canInsertDefault r).1, setBase s ((base s).canInsertDefault r).2)
  inv : ∀ {s}, Inv s → BInv cs md (base s)

/-- Obligations for a single-`Base` algorithm whose `evict` always succeeds on a non-empty cache. -/
structure SBSpec (A : Algo σ) (base : σ → Base μ) (setBase : σ → Base μ → σ) (Inv : σ → Prop)
    (cs md : Nat) (p : Perms := {}) (ok : Req → Prop := SizeOk md) : Prop where
  base_set : ∀ s b, base (setBase s b) = b
  occ : ∀ s, A.occ s = (base s).occ
  nObj : ∀ s, A.nObj s = (base s).nObj
  csz : ∀ s, A.cacheSize s = (base s).cacheSize
  mdz : ∀ s, A.md s = (base s).objMd
  bumpEq : ∀ s, A.bump s = setBase s (base s).bump
  canEq : ∀ s r, A.canInsert s r = (((base s).canInsertDefault r).1, setBase s ((base s).canInsertDefault r).2)
  fuel : ∀ s, (base s).tbl.length ≤ A.fuel s
  inv : ∀ {s}, Inv s → BInv cs md (base s)
  /-- the invariant does not look at the request counter or the admission policy -/
  frame : ∀ {s} (n : Nat) (a : Adm), Inv s → Inv (setBase s { base s with nReq := n, adm := a })
  findF : ∀ {s} (r), Inv s → A.find s r false = .ok (((base s).lookup r.id).isSome, s)
  findHit : ∀ {s} (r o), Inv s → (base s).lookup r.id = some o →
    ∃ s', A.find s r true = .ok (true, s') ∧ Inv s' ∧ (base s').cached.Perm (base s).cached
  findMiss : ∀ {s} (r), Inv s → (base s).lookup r.id = none → A.find s r true = .ok (false, s)
  evict : ∀ {s} (r), Inv s → (base s).tbl ≠ [] → EvWhen p ok cs md (base s) r →
    ∃ s' v, A.evict s r = .ok s' ∧ Inv s' ∧ (base s).cached.Perm (v :: (base s').cached)
  insert : ∀ {s} (r), Inv s → (base s).lookup r.id = none → (base s).occ + r.size + md ≤ cs → ok r →
    ∃ s', A.insert s r = .ok s' ∧ Inv s' ∧ (base s').cached.Perm ((r.id, r.size % u32) :: (base s).cached)
  removeMiss : p.rem = true → ∀ {s} (id), Inv s → (base s).lookup id = none → A.remove s id = .ok (false, s)
  removeHit : p.rem = true → ∀ {s} (id o), Inv s → (base s).lookup id = some o →
    ∃ s', A.remove s id = .ok (true, s') ∧ Inv s' ∧ (base s).cached.Perm ((o.id, o.size) :: (base s').cached)

/-- The part of the state that requests rejected by admission must not touch. -/
structure Quiet (μ : Type) where
  tbl : List (Obj μ)
  occ : Int
  nObj : Int

def Base.quiet (b : Base μ) : Quiet μ := ⟨b.tbl, b.occ, b.nObj⟩

section
variable {A : Algo σ} {base : σ → Base μ} {setBase : σ → Base μ → σ} {Inv : σ → Prop} {cs md : Nat}
  {p : Perms} {ok : Req → Prop}

theorem SBSpec.plain (S : SBSpec A base setBase Inv cs md p ok) : Plain A base setBase Inv cs md :=
  ⟨S.base_set, S.occ, S.nObj, S.csz, S.mdz, S.bumpEq, S.canEq, S.inv⟩

theorem SBSpec.removeFull (S : SBSpec A base setBase Inv cs md p ok) {s : σ} (id : ObjId) (hi : Inv s) (hp : p.rem = true := by rfl) :
    ∃ s', A.remove s id = .ok (decide (id ∈ (base s).cached.ids), s') ∧ Inv s' ∧
      (base s').cached.Perm ((base s).cached.filter (fun x => x.1 ≠ id)) := by
  cases h : (base s).lookup id with
  | none =>
    have hn := lookup_none_iff'.1 h
    refine ⟨s, by rw [S.removeMiss hp id hi h]; simp [Contents.ids, hn], hi, ?_⟩
    rw [filter_ids_eq hn]
  | some o =>
    obtain ⟨s', h1, h2, h3⟩ := S.removeHit hp id o hi h
    obtain ⟨hm, hid⟩ := lookup_some_mem h
    have hin : id ∈ (base s).cached.ids := by
      rw [Contents.ids, map_id_eq]; exact List.mem_map.2 ⟨o, hm, hid⟩
    refine ⟨s', by rw [h1]; simp [hin], h2, ?_⟩
    have hn : (base s).cached.ids.Nodup := by rw [Contents.ids, map_id_eq]; exact (S.inv hi).inv.nodup
    have := filter_cons_self hn h3
    rw [hid] at this
    exact this

/-- The strong contract in the form single-`Base` algorithms have it. -/
abbrev SBStrong {κ : Type} (A : Algo σ) (base : σ → Base μ) (Inv : σ → Prop) (cs md : Nat) (core : σ → κ)
    (p : Perms := {}) (ok : Req → Prop := SizeOk md) : Prop :=
  Strong A (fun s => (base s).cached) Inv (fun _ r => r.size + md ≤ cs) (fun s => (base s).tbl.length)
      cs md p ok (fun s r => admitsBase (base s) r) core

theorem SBSpec.removeExact (S : SBSpec A base setBase Inv cs md p ok) {κ : Type} {core : σ → κ}
    (C : SBStrong A base Inv cs md core p ok) {s0 : σ} (h0 : Inv s0) (hp : p.rem = true := by rfl) :
    RemoveExact A (fun s => (base s).cached) s0 (Calls p ok) := by
  intro ops out s ho h id
  obtain ⟨s', h1, _, h3⟩ := S.removeFull id (C.reach h0 ho h) hp
  exact ⟨s', h1, h3⟩

theorem SBSpec.evictsOne (S : SBSpec A base setBase Inv cs md p ok) {κ : Type} {core : σ → κ}
    (C : SBStrong A base Inv cs md core p ok) {s0 : σ} (h0 : Inv s0) (hp : p.ev = true) :
    EvictsOne A (fun s => (base s).cached) s0 (Calls p ok) := by
  intro ops out s ho h hne r
  obtain ⟨s', v, h1, _, h3⟩ := S.evict r (C.reach h0 ho h) (by intro e; simp [Base.cached, e] at hne) (.inl hp)
  exact ⟨v, s', h1, h3⟩

theorem SBSpec.toEvictPredicts (_ : SBSpec A base setBase Inv cs md p ok) {κ : Type} {core : σ → κ}
    (C : SBStrong A base Inv cs md core p ok) {s0 : σ} (h0 : Inv s0) (toEvict : σ → Option ObjId)
    (h : ∀ {s}, Inv s → (base s).tbl ≠ [] → ∀ r, ∃ id n s', toEvict s = some id ∧ A.evict s r = .ok s' ∧
      (base s).cached.Perm ((id, n) :: (base s').cached)) :
    ToEvictPredicts A (fun s => (base s).cached) toEvict s0 (Calls p ok) := by
  intro ops out s ho hr hne r
  exact h (C.reach h0 ho hr) (by intro e; simp [Base.cached, e] at hne) r

/-- `hc`: `core` does not look at the request counter or the admission policy. -/
theorem SBSpec.strong {κ : Type} (S : SBSpec A base setBase Inv cs md p ok) (core : σ → κ)
    (hc : ∀ s n a, core (setBase s { base s with nReq := n, adm := a }) = core s) :
    SBStrong A base Inv cs md core p ok where
  csz := fun h => by rw [S.csz]; exact (S.inv h).cs
  mdz := fun h => by rw [S.mdz]; exact (S.inv h).md
  nodup := fun h => by rw [Contents.ids, map_id_eq]; exact (S.inv h).inv.nodup
  occ := fun h => by rw [S.occ, (S.inv h).inv.occ_eq, (S.inv h).md]
  nObj := fun h => by rw [S.nObj, (S.inv h).inv.nObj_eq]; simp [Base.cached]
  cap := fun h => by rw [S.occ]; have := (S.inv h).inv.cap; rw [(S.inv h).cs] at this; exact this
  bump := fun {s} h => by
    rw [S.bumpEq, S.base_set]
    have := S.frame ((base s).nReq + 1) (base s).adm h
    exact ⟨this, rfl⟩
  findF := fun _ {s} r h => by rw [S.findF r h, lookup_isSome_iff]
  findHit := fun {s} r h hin _ => by
    have : ((base s).lookup r.id).isSome = true := by rw [lookup_isSome_iff]; simpa using hin
    obtain ⟨o, ho⟩ := Option.isSome_iff_exists.1 this
    obtain ⟨s', h1, h2, h3⟩ := S.findHit r o h ho
    exact ⟨s', h1, h2, h3.subperm⟩
  findMiss := fun {s} r h hn _ => by
    have hl := lookup_none_iff'.2 hn
    refine ⟨s, S.findMiss r h hl, h, List.Perm.refl _, ?_⟩
    rw [S.canEq, canInsertDefault_eq]
    have hfr := S.frame (base s).nReq ((base s).adm.admit r).2 h
    simp only [S.base_set]
    refine ⟨hfr, List.Perm.refl _, ?_⟩
    intro ha _
    simp only [admitsBase, Bool.and_eq_true, decide_eq_true_eq] at ha
    rw [(S.inv h).md, (S.inv h).cs] at ha
    exact ha.2
  fuel := fun {s} _ => S.fuel s
  evictLoop := fun {s} r h hok hr _ hme => by
    have hne : (base s).tbl ≠ [] := by
      intro h0
      simp only [Algo.mustEvict, decide_eq_true_eq] at hme
      rw [S.occ, S.csz, S.mdz, (S.inv h).inv.occ_eq, (S.inv h).cs, (S.inv h).md] at hme
      simp only [Base.cached, h0, List.map_nil, charge] at hme
      omega
    have hw : EvWhen p ok cs md (base s) r := by
      refine .inr ⟨hok, hr, ?_⟩
      simp only [Algo.mustEvict, decide_eq_true_eq] at hme
      rw [S.occ, S.csz, S.mdz, (S.inv h).cs, (S.inv h).md] at hme
      exact hme
    obtain ⟨s', v, h1, h2, h3⟩ := S.evict r h hne hw
    refine ⟨s', h1, h2, hr, ?_, ?_⟩
    · exact (List.Sublist.subperm (List.sublist_cons_self _ _)).trans h3.symm.subperm
    · have := h3.length_eq; simp only [Base.cached, List.length_cons, List.length_map] at this; omega
  insert := fun {s} r h hok _ hn hme => by
    simp only [Algo.mustEvict, decide_eq_false_iff_not, Int.not_lt] at hme
    rw [S.occ, S.csz, S.mdz, (S.inv h).cs, (S.inv h).md] at hme
    obtain ⟨s', h1, h2, h3⟩ := S.insert r h (lookup_none_iff'.2 hn) (by omega) hok
    exact ⟨s', h1, h2, h3.subperm⟩
  userInsert := fun _ {s} r h hok hn hme => by
    simp only [Algo.mustEvict, decide_eq_false_iff_not, Int.not_lt] at hme
    rw [S.occ, S.csz, S.mdz, (S.inv h).cs, (S.inv h).md] at hme
    obtain ⟨s', h1, h2, h3⟩ := S.insert r h (lookup_none_iff'.2 hn) (by omega) hok
    exact ⟨s', h1, h2, h3.subperm⟩
  remove := fun hp {s} id h => by
    obtain ⟨s', h1, h2, h3⟩ := S.removeFull id h hp
    exact ⟨_, s', h1, h2, h3.subperm.trans List.filter_sublist.subperm⟩
  removeGone := fun hp {s s' b} id h he => by
    obtain ⟨s'', h1, h2, h3⟩ := S.removeFull id h hp
    rw [h1] at he
    cases he
    intro hx
    obtain ⟨x, hx', rfl⟩ := List.mem_map.1 hx
    have := h3.subset hx'
    simp at this
  evict := fun hp {s} r h hne => by
    obtain ⟨s', v, h1, h2, h3⟩ := S.evict r h (by intro h0; simp [Base.cached, h0] at hne) (.inl hp)
    exact ⟨s', h1, h2, (List.Sublist.subperm (List.sublist_cons_self _ _)).trans h3.symm.subperm⟩
  hitPerm := fun {s s'} r h hf => by
    cases hl : (base s).lookup r.id with
    | none => rw [S.findMiss r h hl] at hf; cases hf
    | some o =>
      obtain ⟨s'', h1, h2, h3⟩ := S.findHit r o h hl
      rw [h1] at hf; cases hf; exact h3
  missQuiet := fun {s} r h hn => S.findMiss r h (lookup_none_iff'.2 hn)
  admitsEq := fun {s} r h => by
    rw [S.canEq, S.bumpEq, S.base_set, canInsertDefault_eq]; rfl
  coreEq := fun {s} r h => by
    rw [S.canEq, S.bumpEq, S.base_set, canInsertDefault_eq]
    have h1 := hc (setBase s (base s).bump) (base s).bump.nReq ((base s).bump.adm.admit r).2
    rw [S.base_set] at h1
    exact h1.trans (hc s ((base s).nReq + 1) (base s).adm)
  evictAtMostOne := fun {s s'} r h hok hr hme he => by
    have hne : (base s).tbl ≠ [] := by
      intro h0
      simp only [Algo.mustEvict, decide_eq_true_eq] at hme
      rw [S.occ, S.csz, S.mdz, (S.inv h).inv.occ_eq, (S.inv h).cs, (S.inv h).md] at hme
      simp only [Base.cached, h0, List.map_nil, charge] at hme
      omega
    have hw : EvWhen p ok cs md (base s) r := by
      refine .inr ⟨hok, hr, ?_⟩
      simp only [Algo.mustEvict, decide_eq_true_eq] at hme
      rw [S.occ, S.csz, S.mdz, (S.inv h).cs, (S.inv h).md] at hme
      exact hme
    obtain ⟨s'', v, h1, h2, h3⟩ := S.evict r h hne hw
    rw [h1] at he; cases he
    exact ⟨[v], by simp, h3⟩
  insertPerm := fun {s s'} r h hok hr hn hme hins => by
    simp only [Algo.mustEvict, decide_eq_false_iff_not, Int.not_lt] at hme
    rw [S.occ, S.csz, S.mdz, (S.inv h).cs, (S.inv h).md] at hme
    obtain ⟨s'', h1, h2, h3⟩ := S.insert r h (lookup_none_iff'.2 hn) (by omega) hok
    rw [h1] at hins; cases hins; exact h3

end
end Verif
