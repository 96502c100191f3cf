import Verif.Proof.SingleBase
/-!
# Contract for algorithms with one `Base` that need a freshly counted request

Like `SBSpec`, but hits, evictions and insertions may rely on `New`: what holds after `get` has counted the request and until it ends.  The
client calls neither `find` with update nor `insert`.
-/

namespace Verif
open Spec
variable {σ μ : Type}

/-- When `evict` is called: by the client (if permitted), or by `get`. -/
structure TSpec (A : Algo σ) (base : σ → Base μ) (setBase : σ → Base μ → σ) (Inv New : σ → Prop) (cs md : Nat) (p : Perms) (ok : Req → Prop := SizeOk md) : Prop
    extends Plain A base setBase Inv cs md where
  upd : p.upd = false
  ins : p.ins = false
  fuel : ∀ s, (base s).tbl.length ≤ A.fuel s
  bump : ∀ {s}, Inv s → Inv (A.bump s) ∧ New (A.bump s)
  adm : ∀ {s} (a : Adm), Inv s → Inv (setBase s { base s with adm := a }) ∧ (New s → New (setBase s { base s with adm := a }))
  findF : ∀ {s} (r), Inv s → A.find s r false = .ok (((base s).lookup r.id).isSome, s)
  findHit : ∀ {s} (r o), Inv s → New s → (base s).lookup r.id = some o →
    ∃ s', A.find s r true = .ok (true, s') ∧ Inv s'
  hitPerm : ∀ {s s'} (r), Inv s → A.find s r true = .ok (true, s') → (base s').cached.Perm (base s).cached
  findMiss : ∀ {s} (r), Inv s → (base s).lookup r.id = none → A.find s r true = .ok (false, s)
  evict : ∀ {s} (r), Inv s → (base s).tbl ≠ [] → p.ev = true ∨ New s →
    ∃ s' v, A.evict s r = .ok s' ∧ Inv s' ∧ (New s → New s') ∧ (base s).cached.Perm (v :: (base s').cached)
  insert : ∀ {s} (r), Inv s → New s → (base s).lookup r.id = none → (base s).occ + r.size + md ≤ cs → ok r →
    ∃ s', A.insert s r = .ok s' ∧ Inv s' ∧ (base s').cached.Perm ((r.id, r.size % u32) :: (base s).cached)
  removeMiss : p.rem = true → ∀ {s} (id), Inv s → (base s).lookup id = none → A.remove s id = .ok (false, s)
  removeHit : p.rem = true → ∀ {s} (id o), Inv s → (base s).lookup id = some o →
    ∃ s', A.remove s id = .ok (true, s') ∧ Inv s' ∧ (base s).cached.Perm ((o.id, o.size) :: (base s').cached)

section
variable {A : Algo σ} {base : σ → Base μ} {setBase : σ → Base μ → σ} {Inv New : σ → Prop} {cs md : Nat}
  {p : Perms} {ok : Req → Prop}

theorem TSpec.removeFull (S : TSpec A base setBase Inv New cs md p ok) (hp : p.rem = true) {s : σ} (id : ObjId) (hi : Inv s) :
    ∃ s', A.remove s id = .ok (decide (id ∈ (base s).cached.ids), s') ∧ Inv s' ∧
      (base s').cached.Perm ((base s).cached.filter (fun x => x.1 ≠ id)) := by
  cases h : (base s).lookup id with
  | none =>
    have hn := lookup_none_iff'.1 h
    refine ⟨s, by rw [S.removeMiss hp id hi h]; simp [Contents.ids, hn], hi, ?_⟩
    rw [filter_ids_eq hn]
  | some o =>
    obtain ⟨s', h1, h2, h3⟩ := S.removeHit hp id o hi h
    obtain ⟨hm, hid⟩ := lookup_some_mem h
    have hin : id ∈ (base s).cached.ids := by
      rw [Contents.ids, map_id_eq]; exact List.mem_map.2 ⟨o, hm, hid⟩
    refine ⟨s', by rw [h1]; simp [hin], h2, ?_⟩
    have hn : (base s).cached.ids.Nodup := by rw [Contents.ids, map_id_eq]; exact (S.inv hi).inv.nodup
    have := filter_cons_self hn h3
    rw [hid] at this
    exact this

/-- The strong contract of such an algorithm. -/
abbrev TStrong {κ : Type} (A : Algo σ) (base : σ → Base μ) (Inv New : σ → Prop) (cs md : Nat) (core : σ → κ) (p : Perms)
    (ok : Req → Prop := SizeOk md) : Prop :=
  Strong A (fun s => (base s).cached) Inv (fun s r => r.size + md ≤ cs ∧ New s) (fun s => (base s).tbl.length)
      cs md p ok (fun s r => admitsBase (base s) r) core

theorem TSpec.removeExact (S : TSpec A base setBase Inv New cs md p ok) {κ : Type} {core : σ → κ}
    (C : TStrong A base Inv New cs md core p ok) (hp : p.rem = true) {s0 : σ} (h0 : Inv s0) :
    RemoveExact A (fun s => (base s).cached) s0 (Calls p ok) := by
  intro ops out s ho h id
  obtain ⟨s', h1, _, h3⟩ := S.removeFull hp id (C.reach h0 ho h)
  exact ⟨s', h1, h3⟩

theorem TSpec.evictsOne (S : TSpec A base setBase Inv New cs md p ok) {κ : Type} {core : σ → κ}
    (C : TStrong A base Inv New cs md core p ok) {s0 : σ} (h0 : Inv s0) (hp : p.ev = true) :
    EvictsOne A (fun s => (base s).cached) s0 (Calls p ok) := by
  intro ops out s ho h hne r
  obtain ⟨s', v, h1, _, _, h3⟩ := S.evict r (C.reach h0 ho h) (by intro e; simp [Base.cached, e] at hne) (.inl hp)
  exact ⟨v, s', h1, h3⟩

theorem TSpec.new (S : TSpec A base setBase Inv New cs md p ok) {r : Req} {s : σ} (h : Fresh A Inv p ok r s) : New s := by
  rcases h with h | ⟨_, s0, h0, rfl⟩
  · rw [S.upd] at h; cases h
  · exact (S.bump h0).2

theorem Plain.tbl_ne (S : Plain A base setBase Inv cs md) {s : σ} (h : Inv s) {r : Req} (hr : r.size + md ≤ cs)
    (hme : A.mustEvict s r = true) : (base s).tbl ≠ [] := by
  intro h0
  simp only [Algo.mustEvict, decide_eq_true_eq] at hme
  rw [S.occ, S.csz, S.mdz, (S.inv h).inv.occ_eq, (S.inv h).cs, (S.inv h).md] at hme
  simp only [Base.cached, h0, List.map_nil, charge] at hme
  omega

theorem Plain.room (S : Plain A base setBase Inv cs md) {s : σ} (h : Inv s) {r : Req}
    (hme : A.mustEvict s r = false) : (base s).occ + r.size + md ≤ cs := by
  simp only [Algo.mustEvict, decide_eq_false_iff_not, Int.not_lt] at hme
  rw [S.occ, S.csz, S.mdz, (S.inv h).cs, (S.inv h).md] at hme
  omega

/-- `hc`: `core` does not look at the request counter or the admission policy. -/
theorem TSpec.strong {κ : Type} (S : TSpec A base setBase Inv New cs md p ok) (core : σ → κ)
    (hc : ∀ s n a, core (setBase s { base s with nReq := n, adm := a }) = core s) :
    TStrong A base Inv New cs md core p ok where
  csz := fun h => by rw [S.csz]; exact (S.inv h).cs
  mdz := fun h => by rw [S.mdz]; exact (S.inv h).md
  nodup := fun h => by rw [Contents.ids, map_id_eq]; exact (S.inv h).inv.nodup
  occ := fun h => by rw [S.occ, (S.inv h).inv.occ_eq, (S.inv h).md]
  nObj := fun h => by rw [S.nObj, (S.inv h).inv.nObj_eq]; simp [Base.cached]
  cap := fun h => by rw [S.occ]; have := (S.inv h).inv.cap; rw [(S.inv h).cs] at this; exact this
  bump := fun {s} h => by
    refine ⟨(S.bump h).1, ?_⟩
    rw [S.bumpEq, S.base_set]
    rfl
  findF := fun _ {s} r h => by rw [S.findF r h, lookup_isSome_iff]
  findHit := fun {s} r h hin hf => by
    have : ((base s).lookup r.id).isSome = true := by rw [lookup_isSome_iff]; simpa using hin
    obtain ⟨o, ho⟩ := Option.isSome_iff_exists.1 this
    obtain ⟨s', h1, h2⟩ := S.findHit r o h (S.new hf) ho
    exact ⟨s', h1, h2, (S.hitPerm r h h1).subperm⟩
  findMiss := fun {s} r h hn hf => by
    have hl := lookup_none_iff'.2 hn
    refine ⟨s, S.findMiss r h hl, h, List.Perm.refl _, ?_⟩
    rw [S.canEq, canInsertDefault_eq]
    obtain ⟨hfr, hfn⟩ := S.adm ((base s).adm.admit r).2 h
    simp only [S.base_set]
    refine ⟨hfr, List.Perm.refl _, ?_⟩
    intro ha _
    simp only [admitsBase, Bool.and_eq_true, decide_eq_true_eq] at ha
    rw [(S.inv h).md, (S.inv h).cs] at ha
    exact ⟨ha.2, hfn (S.new hf)⟩
  fuel := fun {s} _ => S.fuel s
  evictLoop := fun {s} r h hok hr _ hme => by
    obtain ⟨s', v, h1, h2, h3, h4⟩ := S.evict r h (S.tbl_ne h hr.1 hme) (.inr hr.2)
    refine ⟨s', h1, h2, ⟨hr.1, h3 hr.2⟩, ?_, ?_⟩
    · exact (List.Sublist.subperm (List.sublist_cons_self _ _)).trans h4.symm.subperm
    · have := h4.length_eq; simp only [Base.cached, List.length_cons, List.length_map] at this; omega
  insert := fun {s} r h hok hr hn hme => by
    obtain ⟨s', h1, h2, h3⟩ := S.insert r h hr.2 (lookup_none_iff'.2 hn) (S.room h hme) hok
    exact ⟨s', h1, h2, h3.subperm⟩
  userInsert := fun hp => by rw [S.ins] at hp; cases hp
  remove := fun hp {s} id h => by
    obtain ⟨s', h1, h2, h3⟩ := S.removeFull hp id h
    exact ⟨_, s', h1, h2, h3.subperm.trans List.filter_sublist.subperm⟩
  removeGone := fun hp {s s' b} id h he => by
    obtain ⟨s'', h1, h2, h3⟩ := S.removeFull hp id h
    rw [h1] at he
    cases he
    intro hx
    obtain ⟨x, hx', rfl⟩ := List.mem_map.1 hx
    have := h3.subset hx'
    simp at this
  evict := fun hp {s} r h hne => by
    obtain ⟨s', v, h1, h2, _, h3⟩ := S.evict r h (by intro h0; simp [Base.cached, h0] at hne) (.inl hp)
    exact ⟨s', h1, h2, (List.Sublist.subperm (List.sublist_cons_self _ _)).trans h3.symm.subperm⟩
  hitPerm := fun {s s'} r h hf => S.hitPerm r h hf
  missQuiet := fun {s} r h hn => S.findMiss r h (lookup_none_iff'.2 hn)
  admitsEq := fun {s} r h => by
    rw [S.canEq, S.bumpEq, S.base_set, canInsertDefault_eq]; rfl
  coreEq := fun {s} r h => by
    rw [S.canEq, S.bumpEq, S.base_set, canInsertDefault_eq]
    have h1 := hc (setBase s (base s).bump) (base s).bump.nReq ((base s).bump.adm.admit r).2
    rw [S.base_set] at h1
    exact h1.trans (hc s ((base s).nReq + 1) (base s).adm)
  evictAtMostOne := fun {s s'} r h hok hr hme he => by
    obtain ⟨s'', v, h1, h2, _, h3⟩ := S.evict r h (S.tbl_ne h hr.1 hme) (.inr hr.2)
    rw [h1] at he; cases he
    exact ⟨[v], by simp, h3⟩
  insertPerm := fun {s s'} r h hok hr hn hme hins => by
    obtain ⟨s'', h1, h2, h3⟩ := S.insert r h hr.2 (lookup_none_iff'.2 hn) (S.room h hme) hok
    rw [h1] at hins; cases hins; exact h3

end
end Verif
