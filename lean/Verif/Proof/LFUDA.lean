import Verif.Proof.CondBase
import Verif.Algo.LFUDA
/-!
# LFUDA

Only the `Base` part is needed for the calls that return.
-/

namespace Verif.LFUDA
open Verif Spec

abbrev Inv (cs md : Nat) (s : State) : Prop := BInv cs md s.base

variable {cs md : Nat} {s s' : State}

theorem updateMin_base (s : State) : (updateMin s).base = s.base := by
  simp only [updateMin, LFU.updateMin]
  split <;> rfl

theorem promote_base {id : ObjId} {f : Nat} (h : promote s id f = .ok s') : s'.base = s.base := by
  unfold promote at h
  cases hn : s.nodes f with
  | none => simp [hn] at h
  | some old =>
    simp only [hn] at h
    rw [Res.bind_eq_ok] at h
    obtain ⟨oq, _, h⟩ := h
    rw [Res.bind_eq_ok] at h
    obtain ⟨nq, _, h⟩ := h
    cases h
    show (ite _ _ _ : State).base = _
    split
    · exact updateMin_base _
    · rfl

theorem find_hit {r : Req} {o : Obj Nat} {b : Bool} (h : s.base.lookup r.id = some o) (hf : find s r true = .ok (b, s')) :
    b = true ∧ s'.base = (s.base.modify r.id (touch r)).modify r.id (fun o => { o with mt := o.mt + s.minFreq }) := by
  simp only [find, findBase_hit h, if_true] at hf
  rw [Res.bind_eq_ok] at hf
  obtain ⟨s1, h1, h2⟩ := hf
  cases h2
  exact ⟨rfl, promote_base h1⟩

theorem evict_ok (hi : Inv cs md s) (he : evict s = .ok s') :
    Inv cs md s' ∧ ∃ v, s.base.cached.Perm (v :: s'.base.cached) := by
  unfold evict at he
  cases hn : s.nodes (minKey s) with
  | none => simp [hn] at he
  | some nd =>
    cases hq : nd.q with
    | nil => simp [hn, hq] at he
    | cons id q =>
      simp only [hn, hq] at he
      rw [Res.bind_eq_ok] at he
      obtain ⟨q', _, he⟩ := he
      rw [Res.bind_eq_ok] at he
      obtain ⟨b', h1, he⟩ := he
      injection he with he
      have hb : s'.base = b' := by
        rw [← he]
        split
        · exact updateMin_base _
        · rfl
      have h1 : s.base.removeObjBase id = .ok b' := h1
      cases hl : s.base.lookup id with
      | none => simp [Base.removeObjBase, hl] at h1
      | some o =>
        obtain ⟨b2, g1, g2, _, _, g5, _, _⟩ := hi.remove hl
        rw [g1] at h1
        cases h1
        exact ⟨by rw [Inv, hb]; exact g2, _, by rw [hb]; exact g5⟩

theorem remove_ok {id : ObjId} {o : Obj Nat} {b : Bool} (hi : Inv cs md s) (hl : s.base.lookup id = some o) (he : remove s id = .ok (b, s')) :
    b = true ∧ Inv cs md s' ∧ s.base.cached.Perm ((o.id, o.size) :: s'.base.cached) := by
  simp only [remove, hl] at he
  cases hn : s.nodes o.mt with
  | none => simp [hn] at he
  | some nd =>
    simp only [hn] at he
    rw [Res.bind_eq_ok] at he
    obtain ⟨q', _, he⟩ := he
    rw [Res.bind_eq_ok] at he
    obtain ⟨b', h1, he⟩ := he
    injection he with he
    injection he with he1 he
    have hb : s'.base = b' := by
      rw [← he]
      split
      · exact updateMin_base _
      · rfl
    obtain ⟨b2, g1, g2, _, _, g5, _, _⟩ := hi.remove hl
    rw [g1] at h1
    cases h1
    exact ⟨he1.symm, by rw [Inv, hb]; exact g2, by rw [hb]; exact g5⟩

theorem insert_ok {r : Req} (he : insert s r = .ok s') : s'.base = s.base.insertBase (s.minFreq + 1) r := by
  unfold insert at he
  simp only [] at he
  rw [Res.bind_eq_ok] at he
  obtain ⟨q', _, he⟩ := he
  cases he
  rfl

theorem inv_init (cs md : Nat) (adm : Adm) : Inv cs md (init cs md adm) := ⟨baseInv_init _ _ _, rfl, rfl⟩

theorem find_hit_inv {r : Req} {o : Obj Nat} {b : Bool} (h : Inv cs md s) (hl : s.base.lookup r.id = some o) (hf : find s r true = .ok (b, s')) :
    b = true ∧ Inv cs md s' ∧ s'.base.cached = s.base.cached := by
  obtain ⟨h1, h2⟩ := find_hit hl hf
  refine ⟨h1, ?_, ?_⟩
  · rw [Inv, h2]
    exact (h.modify r.id (touch r) (fun _ => rfl) (fun _ => rfl)).modify r.id (fun o => { o with mt := o.mt + s.minFreq }) (fun _ => rfl) (fun _ => rfl)
  · rw [h2, Base.cached_modify _ r.id (fun o => { o with mt := o.mt + s.minFreq }) (fun _ => rfl) (fun _ => rfl),
      Base.cached_modify _ r.id (touch r) (fun _ => rfl) (fun _ => rfl)]

theorem find_miss {r : Req} (h : s.base.lookup r.id = none) : find s r true = .ok (false, s) := by
  simp only [find, findBase_miss h]

theorem spec (cs md : Nat) : CSpec algo (fun s => s.base) (fun s b => { s with base := b }) (Inv cs md) cs md where
  base_set := fun _ _ => rfl
  occ := fun _ => rfl
  nObj := fun _ => rfl
  csz := fun _ => rfl
  mdz := fun _ => rfl
  bumpEq := fun _ => rfl
  canEq := fun _ _ => rfl
  inv := fun h => h
  bump := fun h => h.bump
  adm := fun a h => h.setAdm a
  findF := fun {s b s'} r h hf => by
    have hf : find s r false = .ok (b, s') := hf
    simp only [find, findBase_false] at hf
    cases hl : s.base.lookup r.id with
    | none => rw [hl] at hf; cases hf; exact ⟨rfl, rfl⟩
    | some o => simp only [hl, Bool.false_eq_true, if_false] at hf; cases hf; exact ⟨rfl, rfl⟩
  findHit := fun {s b s'} r o h hl hf => by
    obtain ⟨h1, h2, h3⟩ := find_hit_inv h hl hf
    exact ⟨h1, h2, by rw [h3]⟩
  findMiss := fun {s b s'} r h hl hf => by
    have hf : find s r true = .ok (b, s') := hf
    rw [find_miss hl] at hf
    cases hf; exact ⟨rfl, rfl⟩
  evict := fun {s s'} r h he => evict_ok h he
  insert := fun {s s'} r h hl hroom hok he => by
    have e := insert_ok (s := s) (s' := s') he
    refine ⟨?_, ?_⟩
    · rw [Inv, e]; exact h.insert _ r (lookup_none_iff'.1 hl) hroom hok
    · rw [e, cached_insertBase]
  removeMiss := fun _ {s b s'} id h hl he => by
    have he : remove s id = .ok (b, s') := he
    simp only [remove, hl] at he
    cases he; exact ⟨rfl, rfl⟩
  removeHit := fun _ {s b s'} id o h hl he => remove_ok h hl he

/-- all of the state but the request counter and the admission policy -/
def core (s : State) : List (Obj Nat) × Int × Int × (Nat → Option LFU.Node) × Nat × Nat := (s.base.tbl, s.base.nObj, s.base.occ, s.nodes, s.minFreq, s.maxFreq)

theorem strong (cs md : Nat) : CStrong algo (fun s => s.base) (Inv cs md) cs md core :=
  (spec cs md).strong core (fun _ _ _ => rfl)
    (fun {s s'} r h hf => by
      cases hl : s.base.lookup r.id with
      | none =>
        have hf : find s r true = .ok (true, s') := hf
        rw [find_miss hl] at hf; cases hf
      | some o => rw [(find_hit_inv h hl hf).2.2])
    (fun {s s'} r h hl hroom hok he => by
      rw [insert_ok (s := s) (s' := s') he, cached_insertBase])

end Verif.LFUDA
