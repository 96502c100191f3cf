import Verif.Base.Medium
import Verif.Proof.QRep
import Verif.Proof.LRU
import Verif.Algo.Ghost
/-!
# Ghost queues: FIFO caches holding ids of evicted objects
-/

namespace Verif
open Spec

/-- What every part of `get` preserves, `get` preserves. -/
theorem Algo.evictLoop_keeps {σ : Type} (A : Algo σ) (P : σ → Prop) (he : ∀ s r s', P s → A.evict s r = .ok s' → P s') (r : Req) :
    ∀ n s s', P s → A.evictLoop r n s = .ok s' → P s' := by
  intro n
  induction n with
  | zero =>
    intro s s' h hl
    simp only [Algo.evictLoop] at hl
    split at hl
    · simp at hl
    · cases hl; exact h
  | succ n ih =>
    intro s s' h hl
    simp only [Algo.evictLoop] at hl
    split at hl
    · cases hs : A.evict s r with
      | error e => rw [hs] at hl; cases hl
      | ok s1 =>
        rw [hs, Res.bind_ok] at hl
        exact ih s1 s' (he s r s1 h hs) hl
    · cases hl; exact h

theorem Algo.get_keeps {σ : Type} (A : Algo σ) (P : σ → Prop) (hb : ∀ s, P s → P (A.bump s))
    (hf : ∀ s r b s', P s → A.find s r true = .ok (b, s') → P s') (hc : ∀ s r, P s → P (A.canInsert s r).2)
    (he : ∀ s r s', P s → A.evict s r = .ok s' → P s') (hi : ∀ s r s', P s → A.insert s r = .ok s' → P s')
    {s s' : σ} {r : Req} {b : Bool} (h : P s) (hg : A.get s r = .ok (b, s')) : P s' := by
  unfold Algo.get at hg
  cases h1 : A.find (A.bump s) r true with
  | error e => rw [h1] at hg; cases hg
  | ok p =>
    obtain ⟨hit, s1⟩ := p
    have p1 := hf _ _ _ _ (hb _ h) h1
    rw [h1, Res.bind_ok] at hg
    simp only at hg
    split at hg
    · cases hg; exact p1
    · have p2 := hc s1 r p1
      cases h2 : A.canInsert s1 r with
      | mk c s2 =>
        rw [h2] at hg p2
        cases c with
        | false => cases hg; exact p2
        | true =>
          simp only at hg p2
          cases h3 : A.evictLoop r (A.fuel s2) s2 with
          | error e => rw [h3] at hg; cases hg
          | ok s3 =>
            rw [h3, Res.bind_ok] at hg
            have p3 := A.evictLoop_keeps P he r _ _ _ p2 h3
            cases h4 : A.insert s3 r with
            | error e => rw [h4] at hg; cases hg
            | ok s4 =>
              rw [h4, Res.bind_ok] at hg
              cases hg
              exact hi _ _ _ p3 h4

theorem removeObjBase_adm {μ : Type} {b b' : Base μ} {id : ObjId} (h : b.removeObjBase id = .ok b') : b'.adm = b.adm := by
  unfold Base.removeObjBase at h
  split at h
  · cases h
  · cases h; rfl

theorem findBase_adm {μ : Type} (b : Base μ) (r : Req) (u : Bool) : (b.findBase r u).2.adm = b.adm := by
  unfold Base.findBase
  split
  · rfl
  · cases u <;> rfl

theorem QState.canInsert_adm {μ : Type} {s : QState μ} {r : Req} (h : s.base.adm = .none) : (s.canInsert r).2.base.adm = .none := by
  simp only [QState.canInsert, Base.canInsertDefault, h, Adm.admit]
  split
  · rfl
  · split <;> rfl

theorem QState.evictTail_adm {μ : Type} {s s' : QState μ} (h : s.base.adm = .none) (he : s.evictTail = .ok s') : s'.base.adm = .none := by
  simp only [QState.evictTail] at he
  cases h1 : qTail s.q with
  | error e => rw [h1] at he; cases he
  | ok v =>
    rw [h1, Res.bind_ok, Base.evictBase] at he
    cases h2 : s.base.removeObjBase v with
    | error e => rw [h2] at he; cases he
    | ok b' =>
      rw [h2, Res.bind_ok] at he
      cases he
      exact (removeObjBase_adm h2).trans h

theorem QState.insert_adm {μ : Type} {z : μ} {s s' : QState μ} {r : Req} (h : s.base.adm = .none) (he : s.insert z r = .ok s') : s'.base.adm = .none := by
  simp only [QState.insert] at he
  cases h1 : qPrepend s.q r.id with
  | error e => rw [h1] at he; cases he
  | ok v => rw [h1, Res.bind_ok] at he; cases he; exact h

theorem QState.remove_adm {μ : Type} {s s' : QState μ} {id : ObjId} {b : Bool} (h : s.base.adm = .none) (hg : s.remove id = .ok (b, s')) :
    s'.base.adm = .none := by
  simp only [QState.remove] at hg
  split at hg
  · cases hg; exact h
  · cases h1 : qRemove s.q id with
    | error e => rw [h1] at hg; cases hg
    | ok v =>
      rw [h1, Res.bind_ok] at hg
      cases h2 : s.base.removeObjBase id with
      | error e => rw [h2] at hg; cases hg
      | ok b' =>
        rw [h2, Res.bind_ok] at hg
        cases hg
        exact (removeObjBase_adm h2).trans h

theorem FIFO.find_adm {s s' : FIFO.State} {r : Req} {u b : Bool} (h : s.base.adm = .none) (hf : FIFO.algo.find s r u = .ok (b, s')) :
    s'.base.adm = .none := by
  simp only [FIFO.algo, FIFO.find] at hf
  cases hf
  exact (findBase_adm _ _ _).trans h

theorem LRU.find_adm {s s' : LRU.State} {r : Req} {u b : Bool} (h : s.base.adm = .none) (hf : LRU.algo.find s r u = .ok (b, s')) :
    s'.base.adm = .none := by
  simp only [LRU.algo, LRU.find] at hf
  have e := findBase_adm s.base r u
  cases h1 : s.base.findBase r u with
  | mk o b2 =>
    rw [h1] at hf e
    simp only at e
    cases o with
    | none => cases hf; exact e.trans h
    | some o =>
      simp only at hf
      split at hf
      · cases h2 : qMoveToHead s.q r.id with
        | error e => rw [h2] at hf; cases hf
        | ok q => rw [h2, Res.bind_ok] at hf; cases hf; exact e.trans h
      · cases hf; exact e.trans h

theorem LRU.adm_get {s s' : LRU.State} {r : Req} {b : Bool} (h : s.base.adm = .none) (hg : LRU.algo.get s r = .ok (b, s')) :
    s'.base.adm = .none :=
  LRU.algo.get_keeps (fun s => s.base.adm = .none) (fun s h => h) (fun _ _ _ _ h hf => LRU.find_adm h hf) (fun _ _ h => QState.canInsert_adm h)
    (fun _ _ _ h he => QState.evictTail_adm h he) (fun _ _ _ h he => QState.insert_adm h he) h hg

theorem FIFO.adm_get {s s' : FIFO.State} {r : Req} {b : Bool} (h : s.base.adm = .none) (hg : FIFO.algo.get s r = .ok (b, s')) :
    s'.base.adm = .none :=
  FIFO.algo.get_keeps (fun s => s.base.adm = .none) (fun s h => h) (fun _ _ _ _ h hf => FIFO.find_adm h hf) (fun _ _ h => QState.canInsert_adm h)
    (fun _ _ _ h he => QState.evictTail_adm h he) (fun _ _ _ h he => QState.insert_adm h he) h hg

theorem sizeOk_zero (r : Req) : SizeOk 0 r := by
  unfold SizeOk
  have : r.size % u32 < u32 := Nat.mod_lt _ (by decide)
  omega

/-- A FIFO or LRU cache without admission policy and without object metadata. -/
structure PInv (cs : Nat) (x : QState Unit) : Prop where
  q : QInv cs 0 x
  adm : x.base.adm = .none

namespace PInv
variable {gs : Nat} {x : QState Unit}

theorem init (gs : Nat) : PInv gs (QState.init gs 0 .none) := ⟨QInv.init gs 0 .none, rfl⟩

theorem nodup (h : PInv gs x) : x.base.cached.ids.Nodup := (FIFO.strong gs 0).nodup h.q

theorem charge_le (h : PInv gs x) : charge 0 x.base.cached ≤ gs := by
  have h1 := h.q.base.inv.cap
  rw [h.q.base.inv.occ_eq, h.q.base.cs, h.q.base.md] at h1
  omega

theorem occ (h : PInv gs x) : x.base.occ = (charge 0 x.base.cached : Nat) := by
  rw [h.q.base.inv.occ_eq, h.q.base.md]

theorem nObj (h : PInv gs x) : x.base.nObj = (x.base.cached.length : Nat) := by
  rw [h.q.base.inv.nObj_eq]; simp [Base.cached]

theorem fifoRemove (h : PInv gs x) (id : ObjId) :
    ∃ x', FIFO.algo.remove x id = .ok (decide (id ∈ x.base.cached.ids), x') ∧ PInv gs x' ∧
      x'.base.cached.Perm (x.base.cached.filter (fun y => y.1 ≠ id)) := by
  obtain ⟨x', h1, h2, h3⟩ := (FIFO.spec gs 0).removeFull id h.q
  exact ⟨x', h1, ⟨h2, QState.remove_adm h.adm h1⟩, h3⟩

theorem fifoRemove_ids (h : PInv gs x) (id : ObjId) :
    ∃ x', FIFO.algo.remove x id = .ok (decide (id ∈ x.base.cached.ids), x') ∧ PInv gs x' ∧
      x'.base.cached.ids.Perm (x.base.cached.ids.filter (fun y => y ≠ id)) := by
  obtain ⟨x', h1, h2, h3⟩ := h.fifoRemove id
  refine ⟨x', h1, h2, ?_⟩
  refine (h3.map Prod.fst).trans ?_
  rw [Contents.ids, List.filter_map]
  exact List.Perm.refl _

theorem lruRemove (h : PInv gs x) (id : ObjId) :
    ∃ x', LRU.algo.remove x id = .ok (decide (id ∈ x.base.cached.ids), x') ∧ PInv gs x' ∧
      x'.base.cached.Perm (x.base.cached.filter (fun y => y.1 ≠ id)) := by
  obtain ⟨x', h1, h2, h3⟩ := (LRU.spec gs 0).removeFull id h.q
  exact ⟨x', h1, ⟨h2, QState.remove_adm h.adm h1⟩, h3⟩

theorem fifoGet (h : PInv gs x) (r : Req) :
    ∃ b x', FIFO.algo.get x r = .ok (b, x') ∧ PInv gs x' ∧ (∀ i ∈ x'.base.cached.ids, i = r.id ∨ i ∈ x.base.cached.ids) := by
  obtain ⟨x', h1, h2, h3⟩ := (FIFO.strong gs 0).toContract.get r (sizeOk_zero r) h.q
  refine ⟨_, x', h1, ⟨h2, FIFO.adm_get h.adm h1⟩, ?_⟩
  intro i hi
  simp only [Contents.ids, List.mem_map] at hi ⊢
  obtain ⟨y, hy, rfl⟩ := hi
  split at h3
  · exact Or.inr ⟨y, h3.subset hy, rfl⟩
  · rcases List.mem_cons.1 (h3.subset hy) with rfl | hy
    · exact Or.inl rfl
    · exact Or.inr ⟨y, hy, rfl⟩

/-- An object that fits is there after `get`. -/
theorem fifoGet_in (h : PInv gs x) (r : Req) (hsz : r.size ≤ gs) {b : Bool} {x' : QState Unit} (he : FIFO.algo.get x r = .ok (b, x')) :
    r.id ∈ x'.base.cached.ids := by
  by_cases hin : r.id ∈ x.base.cached.ids
  · obtain ⟨hb, hbc⟩ := (FIFO.strong gs 0).bump h.q
    obtain ⟨s1, hf, _⟩ := (FIFO.strong gs 0).findHit r hb (by rw [hbc]; exact hin) (Or.inl rfl)
    have hp := (FIFO.strong gs 0).hitPerm r hb hf
    rw [hbc] at hp
    rw [get_hit hf] at he
    cases he
    exact (hp.map Prod.fst).symm.subset hin
  · rcases (FIFO.strong gs 0).get r (sizeOk_zero r) h.q hin with ⟨hf, _⟩ | ⟨_, s', vs, kept, h1, _, _, h2, _⟩
    · simp only [admitsBase, h.adm, Adm.admit, h.q.base.md, h.q.base.cs, Bool.true_and, decide_eq_false_iff_not] at hf
      omega
    · rw [h1] at he
      cases he
      exact (h2.map Prod.fst).symm.subset (by simp)

/-- `get` of an LRU cache on an object it does not hold. -/
theorem lruGet_miss (h : PInv gs x) (r : Req) (hn : r.id ∉ x.base.cached.ids) :
    (¬ r.size ≤ gs ∧ ∃ x', LRU.algo.get x r = .ok (false, x') ∧ PInv gs x' ∧ x'.base.cached.Perm x.base.cached) ∨
    (r.size ≤ gs ∧ ∃ x' vs kept, LRU.algo.get x r = .ok (false, x') ∧ PInv gs x' ∧ x.base.cached.Perm (vs ++ kept) ∧
      x'.base.cached.Perm ((r.id, r.size % u32) :: kept) ∧ ∀ us v, vs = us ++ [v] → charge 0 (v :: kept) + r.size > gs) := by
  have had : admitsBase x.base r = decide (r.size ≤ gs) := by
    simp only [admitsBase, h.adm, Adm.admit, h.q.base.md, h.q.base.cs, Bool.true_and, Nat.add_zero]
  rcases (LRU.strong gs 0).get r (sizeOk_zero r) h.q hn with ⟨hf, x', h1, h2, _, h4⟩ | ⟨ht, s', vs, kept, h1, h2, h3, h4, h5⟩
  · simp only [had, decide_eq_false_iff_not] at hf
    exact Or.inl ⟨hf, x', h1, ⟨h2, LRU.adm_get h.adm h1⟩, h4⟩
  · simp only [had, decide_eq_true_eq] at ht
    exact Or.inr ⟨ht, s', vs, kept, h1, ⟨h2, LRU.adm_get h.adm h1⟩, h3, h4, fun us v e => by simpa using h5 us v e⟩

theorem lruFind_false (h : PInv gs x) (r : Req) : LRU.algo.find x r false = .ok (decide (r.id ∈ x.base.cached.ids), x) :=
  (LRU.strong gs 0).findF (Or.inl rfl) r h.q

theorem fifoFind_false (h : PInv gs x) (r : Req) : FIFO.algo.find x r false = .ok (decide (r.id ∈ x.base.cached.ids), x) :=
  (FIFO.strong gs 0).findF (Or.inl rfl) r h.q

theorem lruFind (h : PInv gs x) (r : Req) :
    ∃ x', LRU.algo.find x r true = .ok (decide (r.id ∈ x.base.cached.ids), x') ∧ PInv gs x' ∧ x'.base.cached.Perm x.base.cached := by
  by_cases hin : r.id ∈ x.base.cached.ids
  · obtain ⟨x', h1, h2, _⟩ := (LRU.strong gs 0).findHit r h.q hin (Or.inl rfl)
    refine ⟨x', by rw [h1]; simp [hin], ⟨h2, LRU.find_adm h.adm h1⟩, (LRU.strong gs 0).hitPerm r h.q h1⟩
  · have h1 := (LRU.strong gs 0).missQuiet r h.q hin
    exact ⟨x, by rw [h1]; simp [hin], h, List.Perm.refl _⟩

theorem lruEvict (h : PInv gs x) (r : Req) (hne : x.base.cached ≠ []) :
    ∃ x' v, LRU.algo.evict x r = .ok x' ∧ PInv gs x' ∧ x.base.cached.Perm (v :: x'.base.cached) := by
  obtain ⟨x', o, h1, h2, _, _, h5, _⟩ := h.q.evictTail_spec (by intro h0; simp [Base.cached, h0] at hne)
  exact ⟨x', _, h1, ⟨h2, QState.evictTail_adm h.adm h1⟩, h5⟩

end PInv

/-- ids on a ghost queue that may be absent -/
def ghostIds : Option FIFO.State → List ObjId
  | none => []
  | some g => g.base.cached.ids

structure GhostInv (gs : Nat) (g : Option FIFO.State) : Prop where
  pres : g.isSome = decide (gs > 0)
  queue : ∀ x, g = some x → PInv gs x

theorem ghostInv_init (gs : Nat) : GhostInv gs (ghostInit gs) := by
  refine ⟨?_, ?_⟩
  · unfold ghostInit
    by_cases h : gs > 0 <;> simp [h]
  · intro x hx
    simp only [ghostInit] at hx
    split at hx
    · cases hx; exact PInv.init gs
    · simp at hx

theorem ghostIds_init (gs : Nat) : ghostIds (ghostInit gs) = [] := by
  unfold ghostInit
  split <;> rfl

theorem ghostIds_nodup {gs : Nat} {g : Option FIFO.State} (h : GhostInv gs g) : (ghostIds g).Nodup := by
  cases g with
  | none => exact List.nodup_nil
  | some x => exact (h.queue x rfl).nodup

theorem ghostRemove_spec {gs : Nat} {g : Option FIFO.State} (h : GhostInv gs g) (id : ObjId) :
    ∃ g', ghostRemove g id = .ok (decide (id ∈ ghostIds g), g') ∧ GhostInv gs g' ∧
      (ghostIds g').Perm ((ghostIds g).filter (fun x => x ≠ id)) ∧ (g'.isSome = g.isSome) := by
  cases g with
  | none => exact ⟨none, by simp [ghostRemove, ghostIds], h, by simp [ghostIds], rfl⟩
  | some x =>
    obtain ⟨x', h1, h2, h3⟩ := (h.queue x rfl).fifoRemove_ids id
    refine ⟨some x', by rw [ghostRemove, h1]; rfl, ⟨h.pres, fun y hy => by cases hy; exact h2⟩, h3, rfl⟩

theorem ghostGet_spec {gs : Nat} {g : Option FIFO.State} (h : GhostInv gs g) (r : Req) :
    ∃ g', ghostGet g r = .ok g' ∧ GhostInv gs g' ∧ (∀ i ∈ ghostIds g', i = r.id ∨ i ∈ ghostIds g) ∧
      (ghostIds g).Nodup ∧ (g'.isSome = g.isSome) := by
  cases g with
  | none => exact ⟨none, rfl, h, by simp [ghostIds], by simp [ghostIds], rfl⟩
  | some x =>
    obtain ⟨b, x', h1, h2, h3⟩ := (h.queue x rfl).fifoGet r
    exact ⟨some x', by simp [ghostGet, h1], ⟨h.pres, fun y hy => by cases hy; exact h2⟩, h3, (h.queue x rfl).nodup, rfl⟩

/-- An object that fits into the ghost queue is there after the ghost queue's `get`. -/
theorem ghostGet_in {gs : Nat} {g g' : Option FIFO.State} (h : GhostInv gs g) (hg : 0 < gs) (r : Req) (hsz : r.size ≤ gs)
    (he : ghostGet g r = .ok g') : r.id ∈ ghostIds g' := by
  cases g with
  | none => have := h.pres; simp at this; omega
  | some x =>
    simp only [ghostGet] at he
    obtain ⟨b, x', h1, h2, h3⟩ := (h.queue x rfl).fifoGet r
    rw [h1, Res.bind_ok] at he
    cases he
    exact (h.queue x rfl).fifoGet_in r hsz h1

end Verif
