import Verif.Proof.Timed
import Verif.Base.Cond
/-!
# Conditional contract for algorithms with one `Base`
-/

namespace Verif
open Spec
variable {σ μ : Type}

/-- Like `SBSpec`, but only about calls that return. -/
structure CSpec (A : Algo σ) (base : σ → Base μ) (setBase : σ → Base μ → σ) (Inv : σ → Prop) (cs md : Nat) (p : Perms := {})
    (ok : Req → Prop := SizeOk md) : Prop
    extends Plain A base setBase Inv cs md where
  bump : ∀ {s}, Inv s → Inv (A.bump s)
  adm : ∀ {s} (a : Adm), Inv s → Inv (setBase s { base s with adm := a })
  findF : ∀ {s b s'} (r), Inv s → A.find s r false = .ok (b, s') → b = ((base s).lookup r.id).isSome ∧ s' = s
  findHit : ∀ {s b s'} (r o), Inv s → (base s).lookup r.id = some o → A.find s r true = .ok (b, s') →
    b = true ∧ Inv s' ∧ (base s').cached.Subperm (base s).cached
  findMiss : ∀ {s b s'} (r), Inv s → (base s).lookup r.id = none → A.find s r true = .ok (b, s') → b = false ∧ s' = s
  evict : ∀ {s s'} (r), Inv s → A.evict s r = .ok s' → Inv s' ∧ ∃ v, (base s).cached.Perm (v :: (base s').cached)
  insert : ∀ {s s'} (r), Inv s → (base s).lookup r.id = none → (base s).occ + r.size + md ≤ cs → ok r → A.insert s r = .ok s' →
    Inv s' ∧ (base s').cached.Subperm ((r.id, r.size % u32) :: (base s).cached)
  removeMiss : p.rem = true → ∀ {s b s'} (id), Inv s → (base s).lookup id = none → A.remove s id = .ok (b, s') → b = false ∧ s' = s
  removeHit : p.rem = true → ∀ {s b s'} (id o), Inv s → (base s).lookup id = some o → A.remove s id = .ok (b, s') →
    b = true ∧ Inv s' ∧ (base s).cached.Perm ((o.id, o.size) :: (base s').cached)

section
variable {A : Algo σ} {base : σ → Base μ} {setBase : σ → Base μ → σ} {Inv : σ → Prop} {cs md : Nat} {p : Perms} {ok : Req → Prop}

theorem CSpec.cond (S : CSpec A base setBase Inv cs md p ok) : Cond A (fun s => (base s).cached) Inv cs md p ok where
  csz := fun h => by rw [S.csz]; exact (S.inv h).cs
  mdz := fun h => by rw [S.mdz]; exact (S.inv h).md
  nodup := fun h => by rw [Contents.ids, map_id_eq]; exact (S.inv h).inv.nodup
  occ := fun h => by rw [S.occ, (S.inv h).inv.occ_eq, (S.inv h).md]
  nObj := fun h => by rw [S.nObj, (S.inv h).inv.nObj_eq]; simp [Base.cached]
  cap := fun h => by rw [S.occ]; have := (S.inv h).inv.cap; rw [(S.inv h).cs] at this; exact this
  bump := fun {s} h => by
    refine ⟨S.bump h, ?_⟩
    rw [S.bumpEq, S.base_set]
    rfl
  can := fun {s} r h => by
    rw [S.canEq, canInsertDefault_eq]
    simp only [S.base_set]
    exact ⟨S.adm ((base s).adm.admit r).2 h, rfl⟩
  findF := fun _ {s b s'} r h hf => by
    obtain ⟨h1, h2⟩ := S.findF r h hf
    exact ⟨by rw [h1, lookup_isSome_iff], h2⟩
  findT := fun {s b s'} r h hf => by
    cases hl : (base s).lookup r.id with
    | none =>
      obtain ⟨rfl, rfl⟩ := S.findMiss r h hl hf
      have hn := lookup_none_iff'.1 hl
      exact ⟨by simp [Contents.ids, hn], h, List.Subperm.refl _⟩
    | some o =>
      obtain ⟨rfl, h2, h3⟩ := S.findHit r o h hl hf
      have : ((base s).lookup r.id).isSome = true := by rw [hl]; rfl
      rw [lookup_isSome_iff] at this
      exact ⟨by rw [← this], h2, h3⟩
  evict := fun {s s'} r h he => by
    obtain ⟨h1, v, h2⟩ := S.evict r h he
    exact ⟨h1, (List.Sublist.subperm (List.sublist_cons_self _ _)).trans h2.symm.subperm⟩
  insert := fun {s s'} r h hok hn hme he => S.insert r h (lookup_none_iff'.2 hn) (S.room h hme) hok he
  remove := fun hp {s b s'} id h he => by
    cases hl : (base s).lookup id with
    | none =>
      obtain ⟨rfl, rfl⟩ := S.removeMiss hp id h hl he
      have hn := lookup_none_iff'.1 hl
      refine ⟨by simp [Contents.ids, hn], h, ?_⟩
      rw [filter_ids_eq hn]
    | some o =>
      obtain ⟨rfl, h2, h3⟩ := S.removeHit hp id o h hl he
      obtain ⟨hm, hid⟩ := lookup_some_mem hl
      have hin : id ∈ (base s).cached.ids := by
        rw [Contents.ids, map_id_eq]; exact List.mem_map.2 ⟨o, hm, hid⟩
      refine ⟨by simp [hin], h2, ?_⟩
      have hn : (base s).cached.ids.Nodup := by rw [Contents.ids, map_id_eq]; exact (S.inv h).inv.nodup
      have := filter_cons_self hn h3
      rw [hid] at this
      exact this

/-- The strong conditional contract of such an algorithm. -/
abbrev CStrong {κ : Type} (A : Algo σ) (base : σ → Base μ) (Inv : σ → Prop) (cs md : Nat) (core : σ → κ) (p : Perms := {})
    (ok : Req → Prop := SizeOk md) : Prop :=
  CondStrong A (fun s => (base s).cached) Inv cs md p ok (fun s r => admitsBase (base s) r) core

/-- `hc`: `core` does not look at the request counter or the admission policy. -/
theorem CSpec.strong {κ : Type} (S : CSpec A base setBase Inv cs md p ok) (core : σ → κ)
    (hc : ∀ s n a, core (setBase s { base s with nReq := n, adm := a }) = core s)
    (hp : ∀ {s s'} (r), Inv s → A.find s r true = .ok (true, s') → (base s').cached.Perm (base s).cached)
    (hins : ∀ {s s'} (r), Inv s → (base s).lookup r.id = none → (base s).occ + r.size + md ≤ cs → ok r → A.insert s r = .ok s' →
      (base s').cached.Perm ((r.id, r.size % u32) :: (base s).cached)) :
    CStrong A base Inv cs md core p ok where
  toCond := S.cond
  hitPerm := hp
  missQuiet := fun {s s'} r h hf => by
    cases hl : (base s).lookup r.id with
    | none => exact (S.findMiss r h hl hf).2
    | some o => have := (S.findHit r o h hl hf).1; cases this
  admitsEq := fun {s} r h => by
    rw [S.canEq, S.bumpEq, S.base_set, canInsertDefault_eq]; rfl
  coreEq := fun {s} r h => by
    rw [S.canEq, S.bumpEq, S.base_set, canInsertDefault_eq]
    have h1 := hc (setBase s (base s).bump) (base s).bump.nReq ((base s).bump.adm.admit r).2
    rw [S.base_set] at h1
    exact h1.trans (hc s ((base s).nReq + 1) (base s).adm)
  evictAtMostOne := fun {s s'} r h he => by
    obtain ⟨_, v, h2⟩ := S.evict r h he
    exact ⟨[v], by simp, h2⟩
  insertPerm := fun {s s'} r h hok hn hme he => hins r h (lookup_none_iff'.2 hn) (S.room h hme) hok he

end
end Verif
