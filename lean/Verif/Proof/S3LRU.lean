import Verif.Proof.S3FIFO
import Verif.Spec.OneSize
import Verif.Algo.S3LRU
/-!
# S3LRU meets the `OneByOne` contract
-/

namespace Verif
open Spec

/-- a hit in an LRU cache that may hold more than its size -/
theorem Rep.lruFind {cs md : Nat} {s : LRU.State} {l : List (Obj Unit)} (h : Rep cs md s l) {r : Req} (hm : r.id ∈ l.map (·.id)) :
    ∃ s' o, LRU.algo.find s r true = .ok (true, s') ∧ o ∈ l ∧ o.id = r.id ∧ Rep cs md s' (touch r o :: delL r.id l) := by
  obtain ⟨o, h1, h2, h3⟩ := h.lookup_some hm
  have hq : r.id ∈ s.q := by rw [h.q]; exact hm
  have hmod := h.modify r.id (touch r) (fun _ => rfl) (fun _ => rfl)
  have hp : (modL r.id (touch r) l).Perm (touch r o :: delL r.id l) := by
    refine ((charge_del h.nodup h2 h3).map _).trans ?_
    rw [List.map_cons, if_pos h3]
    refine List.Perm.cons _ ?_
    rw [show (delL r.id l).map (fun x => if x.id = r.id then touch r x else x) = delL r.id l from ?_]
    conv_rhs => rw [← List.map_id (delL r.id l)]
    apply List.map_congr_left
    intro x hx
    have : x.id ≠ r.id := by have := List.of_mem_filter hx; simpa using this
    simp [this]
  refine ⟨{ base := s.base.modify r.id (touch r), q := r.id :: s.q.erase r.id }, o, ?_, h2, h3, ?_⟩
  · simp only [LRU.algo, LRU.find, findBase_hit h1, if_true, qMoveToHead, if_pos hq, Res.bind_ok]
  · refine ⟨h.csz, h.mdz, ?_, hmod.perm.trans hp, ?_, ?_, ?_, ?_⟩
    · show r.id :: s.q.erase r.id = _
      rw [List.map_cons, delL_ids, h.q]
      rw [show (touch r o).id = r.id from h3]
      congr 1
      exact List.Nodup.erase_eq_filter h.nodup r.id |>.trans (by congr 1; funext x; by_cases hx : x = r.id <;> simp [hx])
    · have := (hp.map (·.id)).nodup_iff.1 hmod.nodup
      exact this
    · have := hmod.occ
      rw [charge_perm (l := cont (modL r.id (touch r) l)) (l' := cont (touch r o :: delL r.id l)) (hp.map _)] at this
      exact this
    · have := hmod.nObj
      rw [hp.length_eq] at this
      exact this
    · intro x hx
      exact hmod.small x (hp.symm.subset hx)

theorem Rep.lruFind_miss {cs md : Nat} {s : LRU.State} {l : List (Obj Unit)} (h : Rep cs md s l) {r : Req} (u : Bool) (hm : r.id ∉ l.map (·.id)) :
    LRU.algo.find s r u = .ok (false, s) := by
  simp only [LRU.algo, LRU.find, findBase_miss (h.lookup_none.2 hm)]

theorem Rep.lruFind_false {cs md : Nat} {s : LRU.State} {l : List (Obj Unit)} (h : Rep cs md s l) (r : Req) :
    LRU.algo.find s r false = .ok (decide (r.id ∈ l.map (·.id)), s) := by
  have e := h.lookup_isSome r.id
  simp only [LRU.algo, LRU.find, findBase_false]
  cases hl : s.base.lookup r.id with
  | none => rw [hl] at e; simp only [Option.isSome_none] at e; rw [← e]
  | some o => rw [hl] at e; simp only [Option.isSome_some] at e; rw [← e]; rfl

namespace S3LRU

/-! ### LRU ghost caches -/

/-- ids in a ghost cache that may be absent -/
def ghostIds : Option LRU.State → List ObjId
  | none => []
  | some g => g.base.cached.ids

structure GhostInv (gs : Nat) (g : Option LRU.State) : Prop where
  pres : g.isSome = decide (0 < gs)
  queue : ∀ x, g = some x → PInv gs x

theorem ghostRemove_spec {gs : Nat} {g : Option LRU.State} (h : GhostInv gs g) (id : ObjId) :
    ∃ g', ghostRemove g id = .ok (decide (id ∈ ghostIds g), g') ∧ GhostInv gs g' ∧
      (ghostIds g').Perm ((ghostIds g).filter (fun x => x ≠ id)) := by
  cases g with
  | none => exact ⟨none, by simp [ghostRemove, ghostIds], h, by simp [ghostIds]⟩
  | some x =>
    obtain ⟨x', h1, h2, h3⟩ := (h.queue x rfl).lruRemove id
    refine ⟨some x', by rw [ghostRemove, h1]; rfl, ⟨h.pres, fun y hy => by cases hy; exact h2⟩, ?_⟩
    refine (h3.map Prod.fst).trans ?_
    rw [ghostIds, Contents.ids, List.filter_map]
    exact List.Perm.refl _

theorem ghostGet_spec {gs : Nat} {g : Option LRU.State} (h : GhostInv gs g) (r : Req) :
    ∃ g', ghostGet g r = .ok g' ∧ GhostInv gs g' ∧ (∀ i ∈ ghostIds g', i = r.id ∨ i ∈ ghostIds g) ∧
      (0 < gs → r.size ≤ gs → r.id ∈ ghostIds g') := by
  cases g with
  | none => exact ⟨none, rfl, h, by simp [ghostIds], fun hg => by have := h.pres; simp at this; omega⟩
  | some x =>
    have hx := h.queue x rfl
    by_cases hin : r.id ∈ x.base.cached.ids
    · obtain ⟨hb, hbc⟩ := (LRU.strong gs 0).bump hx.q
      obtain ⟨x', h1, h2, _⟩ := (LRU.strong gs 0).findHit r hb (by rw [hbc]; exact hin) (Or.inl rfl)
      have hp := (LRU.strong gs 0).hitPerm r hb h1
      rw [hbc] at hp
      have hg := get_hit h1
      refine ⟨some x', by simp [ghostGet, hg], ⟨h.pres, fun y hy => by cases hy; exact ⟨h2, LRU.adm_get hx.adm hg⟩⟩, ?_, ?_⟩
      · intro i hi
        exact Or.inr ((hp.map Prod.fst).subset hi)
      · intro _ _
        exact (hp.map Prod.fst).symm.subset hin
    · rcases hx.lruGet_miss r hin with ⟨hsz, x', h1, h2, h3⟩ | ⟨hsz, x', vs, kept, h1, h2, h3, h4, _⟩
      · refine ⟨some x', by simp [ghostGet, h1], ⟨h.pres, fun y hy => by cases hy; exact h2⟩, ?_, fun _ hx => absurd hx hsz⟩
        intro i hi
        exact Or.inr ((h3.map Prod.fst).subset hi)
      · refine ⟨some x', by simp [ghostGet, h1], ⟨h.pres, fun y hy => by cases hy; exact h2⟩, ?_, ?_⟩
        · intro i hi
          have := (h4.map Prod.fst).subset hi
          rw [List.map_cons, List.mem_cons] at this
          refine this.imp id (fun hk => (h3.map Prod.fst).symm.subset ?_)
          rw [List.map_append]; exact List.mem_append_right _ hk
        · intro _ _
          exact (h4.map Prod.fst).symm.subset (by simp)

theorem ghostIds_nodup {gs : Nat} {g : Option LRU.State} (h : GhostInv gs g) : (ghostIds g).Nodup := by
  cases g with
  | none => simp [ghostIds]
  | some x => exact (h.queue x rfl).nodup

/-! ### The eviction loop -/

theorem removeAsserted_spec {fs : Nat} {q : QState Nat} {l : List (Obj Nat)} {o : Obj Nat} (h : Rep fs 0 q (l ++ [o])) :
    ∃ q', removeAsserted q o.id = .ok q' ∧ Rep fs 0 q' l := by
  obtain ⟨q', hr, hrep⟩ := h.remove_hit (id := o.id) (by simp)
  rw [delL_last h.nodup] at hrep
  exact ⟨q', by simp [removeAsserted, hr], hrep⟩

/-- the object as it enters the main cache from the tail of the small queue -/
def moved (o : Obj Nat) : Obj Unit := Obj.ofReq () o.toReq

theorem cont_moved {l : List (Obj Nat)} (h : ∀ o ∈ l, o.size < u32) : cont (l.map moved) = cont l := by
  induction l with
  | nil => rfl
  | cons o l ih =>
    rw [List.map_cons, cont_cons, cont_cons, ih (fun x hx => h x (List.mem_cons_of_mem _ hx))]
    have : o.size % u32 = o.size := Nat.mod_eq_of_lt (h o List.mem_cons_self)
    simp only [moved, Obj.ofReq, Obj.toReq, this]

/-- What `evictSmall` does: `mv`, the tail of the small queue, moves to the main cache; `vs` (at most one object) leaves the cache and is offered to the
ghost cache. -/
theorem evictSmall_spec {fs ms gs : Nat} : ∀ (n : Nat) (s : State) (lf : List (Obj Nat)) (lm : List (Obj Unit)), Rep fs 0 s.small lf →
    Rep ms 0 s.main lm → (∀ i ∈ lf.map (·.id), i ∉ lm.map (·.id)) → GhostInv gs s.ghost → lf.length ≤ n →
    ∃ f' m' g' lf' vs mv, evictSmall n s = .ok { s with small := f', main := m', ghost := g' } ∧
      lf = lf' ++ vs ++ mv ∧ vs.length ≤ 1 ∧ (vs = [] → charge 0 (cont lf') = 0) ∧
      (∀ o ∈ mv, s.promote = false ∧ s.threshold ≤ o.mt) ∧ (∀ o ∈ vs, s.promote = false → (o.mt : Int) < s.threshold) ∧
      Rep fs 0 f' lf' ∧ Rep ms 0 m' (mv.map moved ++ lm) ∧ GhostInv gs g' ∧
      (vs = [] → g' = s.ghost) ∧ (∀ o ∈ vs, ghostGet s.ghost o.toReq = .ok g') := by
  intro n
  induction n with
  | zero =>
    intro s lf lm hf hm _ hg hlen
    have : lf = [] := List.length_eq_zero_iff.1 (by omega)
    subst this
    have hocc : ¬ s.small.base.occ > 0 := by rw [hf.occ]; simp [charge]
    exact ⟨s.small, s.main, s.ghost, [], [], [], by simp [evictSmall, hocc], rfl, by simp, by simp [charge], by simp, by simp,
      hf, by simpa using hm, hg, by simp, by simp⟩
  | succ n ih =>
    intro s lf lm hf hm hdis hg hlen
    by_cases hpos : 0 < charge 0 (cont lf)
    · obtain ⟨l, o, rfl⟩ := exists_last_of_charge hpos
      have hocc : s.small.base.occ > 0 := by rw [hf.occ]; omega
      have ht := hf.tailObj rfl
      obtain ⟨f1, hr, hrep⟩ := removeAsserted_spec hf
      have hnm : o.id ∉ lm.map (·.id) := hdis o.id (by simp)
      have hnl : o.id ∉ l.map (·.id) := by
        have := hf.nodup
        rw [List.map_append, List.nodup_append] at this
        intro hx
        exact this.2.2 o.id hx o.id (by simp) rfl
      by_cases hfr : s.promote = false ∧ (o.mt : Int) ≥ s.threshold
      · obtain ⟨m2, hi, hrep2⟩ := hm.insert () o.toReq hnm (sizeOk_zero _)
        have hi' : LRU.algo.insert s.main o.toReq = .ok m2 := hi
        have hdis' : ∀ i ∈ l.map (·.id), i ∉ (moved o :: lm).map (·.id) := by
          intro i hi
          simp only [List.map_cons, List.mem_cons, not_or]
          refine ⟨?_, hdis i (by simp only [List.map_append, List.mem_append]; exact Or.inl hi)⟩
          rintro rfl
          exact hnl hi
        obtain ⟨f', m', g', lf', vs, mv, k1, k2, k3, k4, k5, k6, k7, k8, k9, k10, k11⟩ :=
          ih { s with main := m2, small := f1 } l (moved o :: lm) hrep hrep2 hdis' hg (by simp at hlen; omega)
        refine ⟨f', m', g', lf', vs, mv ++ [o], ?_, by rw [k2]; simp, k3, k4, ?_, k6, k7, by simpa using k8, k9, k10, k11⟩
        · rw [evictSmall, if_pos hocc, ht, Res.bind_ok, if_pos hfr, hi', Res.bind_ok, hr, Res.bind_ok]
          exact k1
        · intro x hx
          rcases List.mem_append.1 hx with hx | hx
          · exact k5 x hx
          · rw [List.mem_singleton.1 hx]; exact hfr
      · obtain ⟨g', hg1, hg2, _⟩ := ghostGet_spec hg o.toReq
        refine ⟨f1, s.main, g', l, [o], [], ?_, by simp, by simp, by simp, by simp, ?_, hrep, by simpa using hm,
          hg2, by simp, by simpa using hg1⟩
        · rw [evictSmall, if_pos hocc, ht, Res.bind_ok, if_neg hfr, hg1, Res.bind_ok, hr, Res.bind_ok]
        · intro x hx hp
          rw [List.mem_singleton.1 hx]
          by_contra hlt
          exact hfr ⟨hp, by omega⟩
    · have hocc : ¬ s.small.base.occ > 0 := by rw [hf.occ]; omega
      exact ⟨s.small, s.main, s.ghost, lf, [], [], by simp [evictSmall, hocc], by simp, by simp, by intro _; omega, by simp, by simp,
        hf, by simpa using hm, hg, by simp, by simp⟩

/-! ### The invariant -/

/-- what is cached: the small queue and the main cache -/
def cached (s : State) : Contents := cont s.small.objs ++ cont s.main.objs

/-- the fixed parameters of a cache -/
structure Cfg where
  cs : Nat
  fs : Nat
  gs : Nat
  pr : Bool
  thr : Int
  sz : ObjId → Nat
  le : fs ≤ cs

structure Inv (c : Cfg) (p : Perms) (s : State) : Prop where
  csz : s.cacheSize = c.cs
  small : Rep c.fs 0 s.small s.small.objs
  main : Rep (c.cs - c.fs) 0 s.main s.main.objs
  dis : ∀ i ∈ s.small.objs.map (·.id), i ∉ s.main.objs.map (·.id)
  cap : charge 0 (cached s) ≤ c.cs
  ghost : GhostInv c.gs s.ghost
  prz : s.promote = c.pr
  thrz : s.threshold = c.thr
  sep : p.ins = false → ∀ i ∈ ghostIds s.ghost, i ∉ (cached s).ids
  sized : ∀ x ∈ cached s, x.2 = c.sz x.1 % u32 ∧ (p.ev = true → 0 < x.2)

variable {c : Cfg} {p : Perms} {s : State}

theorem inv_mk {lf : List (Obj Nat)} {lm : List (Obj Unit)} (hcs : s.cacheSize = c.cs)
    (hf : Rep c.fs 0 s.small lf) (hm : Rep (c.cs - c.fs) 0 s.main lm) (hdis : ∀ i ∈ lf.map (·.id), i ∉ lm.map (·.id))
    (hcap : charge 0 (cont lf ++ cont lm) ≤ c.cs) (hg : GhostInv c.gs s.ghost) (hpr : s.promote = c.pr) (ht : s.threshold = c.thr)
    (hsep : p.ins = false → ∀ i ∈ ghostIds s.ghost, i ∉ Contents.ids (cont lf ++ cont lm))
    (hsz : ∀ x ∈ cont lf ++ cont lm, x.2 = c.sz x.1 % u32 ∧ (p.ev = true → 0 < x.2)) : Inv c p s := by
  have e1 := hf.objs
  have e2 := hm.objs
  have ec : cached s = cont lf ++ cont lm := by rw [cached, e1, e2]
  exact ⟨hcs, by rw [e1]; exact hf, by rw [e2]; exact hm, by rw [e1, e2]; exact hdis, by rw [ec]; exact hcap, hg, hpr, ht,
    by rw [ec]; exact hsep, by rw [ec]; exact hsz⟩

theorem inv_init (c : Cfg) (p : Perms) : Inv c p (init c.cs c.fs c.gs c.pr c.thr) := by
  refine inv_mk rfl (Rep.init c.fs 0 .none) (Rep.init (c.cs - c.fs) 0 .none) (by simp) (by simp [charge]) ⟨?_, ?_⟩ rfl rfl (by simp) (by simp)
  · simp only [init]; split <;> simp [*]
  · intro x hx
    simp only [init] at hx
    split at hx
    · cases hx; exact PInv.init c.gs
    · cases hx

theorem cached_init (c : Cfg) : cached (init c.cs c.fs c.gs c.pr c.thr) = [] := rfl

def measure (s : State) : Nat := 2 * s.small.objs.length + s.main.objs.length

theorem Inv.occ (h : Inv c p s) : algo.occ s = (charge 0 (cached s) : Nat) := by
  show s.small.base.occ + s.main.base.occ = _
  rw [h.small.occ, h.main.occ, cached, charge_append]; push_cast; rfl

theorem Inv.nodup (h : Inv c p s) : (cached s).ids.Nodup := by
  have : (cached s).ids = s.small.objs.map (·.id) ++ s.main.objs.map (·.id) := by
    rw [cached, Contents.ids, List.map_append]; rw [← cont_ids, ← cont_ids]
  rw [this, List.nodup_append]
  exact ⟨h.small.nodup, h.main.nodup, fun a ha b hb e => h.dis a ha (e ▸ hb)⟩

theorem mem_cached (s : State) (i : ObjId) :
    i ∈ (cached s).ids ↔ i ∈ s.small.objs.map (·.id) ∨ i ∈ s.main.objs.map (·.id) := by
  rw [cached, Contents.ids, List.map_append, List.mem_append, ← cont_ids, ← cont_ids]

theorem bump_inv (h : Inv c p s) : Inv c p (algo.bump s) :=
  ⟨h.csz, h.small, h.main, h.dis, h.cap, h.ghost, h.prz, h.thrz, h.sep, h.sized⟩

theorem mustEvict_iff (h : Inv c p s) (r : Req) : algo.mustEvict s r = true ↔ charge 0 (cached s) + r.size > c.cs := by
  simp only [Algo.mustEvict, decide_eq_true_eq, h.occ]
  have e1 : (algo.cacheSize s : Int) = c.cs := by show (s.cacheSize : Int) = c.cs; rw [h.csz]
  have e2 : (algo.md s : Int) = 0 := rfl
  rw [e1, e2]
  omega

theorem exists_last {l : List (Obj Unit)} (h : 0 < charge 0 (cont l)) : ∃ l' o, l = l' ++ [o] := exists_last_of_charge h

theorem cond_iff (h : Inv c p s) : (s.main.base.occ > (s.main.base.cacheSize : Int) ∨ s.small.base.occ = 0) ↔
    (charge 0 (cont s.main.objs) > c.cs - c.fs ∨ charge 0 (cont s.small.objs) = 0) := by
  rw [h.small.occ, h.main.occ, h.main.csz]
  have := c.le
  constructor <;> intro h <;> omega

/-- One call of `evict`. -/
theorem evict_spec (h : Inv c p s) (hpos : 0 < charge 0 (cached s)) (r : Req) :
    ∃ s' vs, evict s r = .ok s' ∧ Inv c p s' ∧ vs.length ≤ 1 ∧ (cached s).Perm (vs ++ cached s') ∧
      measure s' < measure s ∧ s'.hitOnGhost = s.hitOnGhost ∧
      (∀ i ∈ ghostIds s'.ghost, i ∈ ghostIds s.ghost ∨ i ∈ (cached s).ids) ∧
      (∀ o ∈ s'.small.objs, o ∈ s.small.objs) ∧
      ((charge 0 (cont s.main.objs) > c.cs - c.fs ∨ charge 0 (cont s.small.objs) = 0) →
        s'.small = s.small ∧ s'.ghost = s.ghost ∧ ∃ v, s.main.objs = s'.main.objs ++ [v]) ∧
      (¬ (charge 0 (cont s.main.objs) > c.cs - c.fs ∨ charge 0 (cont s.small.objs) = 0) →
        ∃ vs mv, s.small.objs = s'.small.objs ++ vs ++ mv ∧ vs.length ≤ 1 ∧ (vs = [] → charge 0 (cont s'.small.objs) = 0) ∧
          (∀ o ∈ mv, c.pr = false ∧ c.thr ≤ o.mt) ∧ (∀ o ∈ vs, c.pr = false → (o.mt : Int) < c.thr) ∧
          s'.main.objs.map (·.id) = mv.map (·.id) ++ s.main.objs.map (·.id) ∧
          (∀ o ∈ vs, 0 < c.gs → o.size ≤ c.gs → o.id ∈ ghostIds s'.ghost)) := by
  have hfo := h.small.occ
  have hmo := h.main.occ
  have hiff := cond_iff h
  by_cases hc : s.main.base.occ > (s.main.base.cacheSize : Int) ∨ s.small.base.occ = 0
  · have hpm : 0 < charge 0 (cont s.main.objs) := by
      rw [cached, charge_append] at hpos
      rcases hc with hc | hc <;> omega
    obtain ⟨l, o, e⟩ := exists_last hpm
    have hml : Rep (c.cs - c.fs) 0 s.main (l ++ [o]) := by rw [← e]; exact h.main
    obtain ⟨m', m1, m2⟩ := hml.evictTail rfl
    have m1' : LRU.algo.evict s.main r = .ok m' := m1
    have hsub : List.Sublist (cont s.small.objs ++ cont l) (cached s) := by
      rw [cached, e, cont_append, ← List.append_assoc]
      exact List.sublist_append_left _ _
    have ec : cached { s with main := m' } = cont s.small.objs ++ cont l := by unfold cached; simp only; rw [m2.objs]
    refine ⟨{ s with main := m' }, [(o.id, o.size)], by rw [evict, if_pos hc, m1', Res.bind_ok], ?_, by simp, ?_, ?_, rfl, fun i hi => Or.inl hi,
      fun o ho => ho, fun _ => ⟨rfl, rfl, o, ?_⟩, fun hn => absurd (hiff.1 hc) hn⟩
    · refine inv_mk h.csz h.small m2 ?_ (Nat.le_trans (charge_sublist hsub) h.cap) h.ghost h.prz h.thrz ?_ (fun x hx => h.sized x (hsub.subset hx))
      · intro i hi hi'
        exact h.dis i hi (by rw [e, List.map_append]; exact List.mem_append_left _ hi')
      · intro hd i hi hi'
        exact h.sep hd i hi ((hsub.map _).subset hi')
    · rw [ec, cached, e, cont_append, ← List.append_assoc]
      exact List.perm_append_comm
    · simp only [measure, m2.objs, e, List.length_append, List.length_cons, List.length_nil]; omega
    · rw [e]; exact congrArg (· ++ [o]) m2.objs.symm
  · have hposf : 0 < charge 0 (cont s.small.objs) := by
      rw [not_or] at hc
      have := hc.2
      rw [hfo] at this
      omega
    obtain ⟨f', m', g', lf', vs, mv, k1, k2, k3, k4, k5, k6, k7, k8, k9, k10, k11⟩ :=
      evictSmall_spec s.small.base.tbl.length s s.small.objs s.main.objs h.small h.main h.dis h.ghost
        (Nat.le_of_eq h.small.perm.length_eq.symm)
    have hmv : cont (mv.map moved) = cont mv := by
      refine cont_moved (fun o ho => ?_)
      have := h.small.small o (by rw [k2]; simp [ho])
      omega
    have hperm : (cached s).Perm (cont vs ++ (cont lf' ++ cont (mv.map moved ++ s.main.objs))) := by
      unfold cached
      rw [k2]
      simp only [cont_append, hmv, List.append_assoc]
      have e := (List.perm_append_comm (l₁ := cont lf') (l₂ := cont vs)).append_right (cont mv ++ cont s.main.objs)
      simpa only [List.append_assoc] using e
    have hnd := h.nodup
    have hnd' := (hperm.map Prod.fst).nodup_iff.1 hnd
    rw [List.map_append, List.nodup_append, List.map_append, List.nodup_append] at hnd'
    have hinv : Inv c p { s with small := f', main := m', ghost := g' } := by
      refine inv_mk h.csz k7 k8 ?_ ?_ k9 h.prz h.thrz ?_ ?_
      · intro i hi hi'
        rw [← cont_ids] at hi hi'
        exact hnd'.2.1.2.2 i hi i hi' rfl
      · have := charge_perm (md := 0) hperm
        rw [charge_append] at this
        have := h.cap
        omega
      · intro hd i hi hi'
        have hin : i ∈ (cached s).ids := (hperm.map Prod.fst).symm.subset (by
          rw [List.map_append]; exact List.mem_append_right _ hi')
        match vs, k3, k10, k11, hnd' with
        | [], _, k10, _, _ =>
          simp only [k10 rfl] at hi
          exact h.sep hd i hi hin
        | [v], _, _, k11, hnd' =>
          obtain ⟨g'', e1, _, e2, _⟩ := ghostGet_spec h.ghost v.toReq
          rw [k11 v (by simp)] at e1
          cases e1
          rcases e2 i hi with rfl | hi
          · refine hnd'.2.2 v.id (by simp [cont]) v.id ?_ rfl
            rw [← List.map_append]; exact hi'
          · exact h.sep hd i hi hin
      · intro x hx
        exact h.sized x (hperm.symm.subset (List.mem_append_right _ hx))
    have ec : cached { s with small := f', main := m', ghost := g' } = cont lf' ++ cont (mv.map moved ++ s.main.objs) := by
      unfold cached; simp only; rw [k7.objs, k8.objs]
    rw [h.thrz, h.prz] at k5 k6
    refine ⟨{ s with small := f', main := m', ghost := g' }, cont vs, ?_, hinv, by rw [cont_length]; exact k3, by rw [ec]; exact hperm, ?_, rfl,
      ?_, ?_, fun hn => absurd (hiff.2 hn) hc, fun _ => ⟨vs, mv, ?_, k3, ?_, k5, k6, ?_, ?_⟩⟩
    · rw [evict, if_neg hc]; exact k1
    · simp only [measure, k7.objs, k8.objs, List.length_append, List.length_map]
      have hlen : s.small.objs.length = lf'.length + vs.length + mv.length := by rw [k2]; simp only [List.length_append]
      have : vs ≠ [] ∨ mv ≠ [] := by
        by_contra hno
        rw [not_or, not_not, not_not] at hno
        have h0 := k4 hno.1
        rw [k2, hno.1, hno.2] at hposf
        simp only [List.append_nil] at hposf
        omega
      have : 0 < vs.length ∨ 0 < mv.length := by
        rcases this with h | h
        · exact Or.inl (List.length_pos_iff.2 h)
        · exact Or.inr (List.length_pos_iff.2 h)
      omega
    · intro i hi
      match vs, k3, k10, k11, k2 with
      | [], _, k10, _, _ => exact Or.inl (by rw [← k10 rfl]; exact hi)
      | [v], _, _, k11, k2 =>
        obtain ⟨g'', e1, _, e2, _⟩ := ghostGet_spec h.ghost v.toReq
        rw [k11 v (by simp)] at e1
        cases e1
        rcases e2 i hi with rfl | hi
        · refine Or.inr ((mem_cached s _).2 (Or.inl ?_))
          rw [k2]; simp [Obj.toReq]
        · exact Or.inl hi
    · intro o ho
      simp only [k7.objs] at ho
      rw [k2]; simp [ho]
    · rw [show ({ s with small := f', main := m', ghost := g' } : State).small.objs = lf' from k7.objs]; exact k2
    · rw [show ({ s with small := f', main := m', ghost := g' } : State).small.objs = lf' from k7.objs]; exact k4
    · rw [show ({ s with small := f', main := m', ghost := g' } : State).main.objs = _ from k8.objs]
      simp [moved, Obj.ofReq, Obj.toReq]
    · intro o ho hg hsz
      obtain ⟨g'', e1, _, _, e2⟩ := ghostGet_spec h.ghost o.toReq
      rw [k11 o ho] at e1
      cases e1
      exact e2 hg hsz

/-- with promotion on hit an eviction takes exactly one object -/
theorem evictsOne (h : Inv c p s) (hpr : c.pr = true) (hpos : 0 < charge 0 (cached s)) (r : Req) :
    ∃ v s', algo.evict s r = .ok s' ∧ (cached s).Perm (v :: cached s') := by
  obtain ⟨s', vs, k1, k2, k3, k4, _, _, _, _, k9, k10⟩ := evict_spec h hpos r
  have hne : vs ≠ [] := by
    rintro rfl
    have hlen := k4.length_eq
    simp only [List.nil_append, cached, List.length_append, cont_length] at hlen
    by_cases hc : charge 0 (cont s.main.objs) > c.cs - c.fs ∨ charge 0 (cont s.small.objs) = 0
    · obtain ⟨e1, _, v, e3⟩ := k9 hc
      rw [e1, e3] at hlen
      simp only [List.length_append, List.length_cons, List.length_nil] at hlen
      omega
    · obtain ⟨us, mv, e1, e2, e3, e4, _, e6, _⟩ := k10 hc
      have hmv : mv = [] := by
        cases mv with
        | nil => rfl
        | cons o l => have := (e4 o (by simp)).1; rw [hpr] at this; cases this
      subst hmv
      have l1 := congrArg List.length e1
      have l2 := congrArg List.length e6
      simp only [List.length_append, List.length_map, List.length_nil] at l1 l2
      cases us with
      | nil =>
        rw [not_or] at hc
        apply hc.2
        rw [e1]
        simpa using e3 rfl
      | cons u us => simp only [List.length_cons] at l1; omega
  match vs, k3, hne, k4 with
  | [v], _, _, k4 => exact ⟨v, s', k1, k4⟩

theorem find_false (h : Inv c p s) (r : Req) : find s r false = .ok (decide (r.id ∈ (cached s).ids), s) := by
  simp only [find, Bool.false_eq_true, if_false, (h.small.findFIFO_false r).1, h.main.lruFind_false r, Res.bind_ok]
  by_cases h1 : r.id ∈ s.small.objs.map (·.id)
  · rw [if_pos (decide_eq_true h1), decide_eq_true ((mem_cached s r.id).2 (Or.inl h1))]
  · rw [if_neg (by simpa using h1)]
    congr 2
    exact decide_eq_decide.2 ⟨fun hx => (mem_cached s r.id).2 (Or.inr hx), fun hx => ((mem_cached s r.id).1 hx).resolve_left h1⟩

def bumped (r : Req) (o : Obj Nat) : Obj Nat := hit (touch r o)

/-- a hit in the small queue that moves nothing -/
theorem findSmall_stay (h : Inv c p s) {r : Req} {o : Obj Nat} (ho : o ∈ s.small.objs) (hid : o.id = r.id)
    (hthr : ¬ (c.pr = true ∧ ((o.mt + 1 : Nat) : Int) ≥ c.thr)) :
    ∃ s', find s r true = .ok (true, s') ∧ Inv c p s' ∧ cached s' = cached s ∧
      s'.small.objs = modL r.id (bumped r) s.small.objs ∧ s'.main = s.main ∧ s'.ghost = s.ghost := by
  obtain ⟨o', ho', hid', hf⟩ := h.small.findFIFO_hit (r := r) (List.mem_map.2 ⟨o, ho, hid⟩)
  have hoo : o' = o := by
    have e1 := h.small.lookup_mem ho
    have e2 := h.small.lookup_mem ho'
    rw [hid'] at e2
    rw [hid] at e1
    rw [e1] at e2
    exact (Option.some.inj e2).symm
  subst hoo
  have hrep := (h.small.modify r.id (touch r) (fun _ => rfl) (fun _ => rfl)).modify r.id hit (fun _ => rfl) (fun _ => rfl)
  rw [S3FIFO.modL_modL r.id (touch r) hit (fun _ => rfl)] at hrep
  have ec : cont (modL r.id (fun o => hit (touch r o)) s.small.objs) = cont s.small.objs :=
    modL_cont r.id (fun o => hit (touch r o)) (fun _ => rfl) (fun _ => rfl) _
  refine ⟨{ s with hitOnGhost := false, small := (s.small.modify r.id (touch r)).modify r.id hit }, ?_, ?_, ?_, hrep.objs, rfl, rfl⟩
  · rw [find, if_pos rfl, findUpdate, hf]
    simp only []
    rw [if_neg (by rw [h.prz, h.thrz]; exact hthr)]
  · refine inv_mk h.csz hrep h.main ?_ (by rw [ec]; exact h.cap) h.ghost h.prz h.thrz (by rw [ec]; exact h.sep) (by rw [ec]; exact h.sized)
    intro i hi
    rw [modL_ids r.id (fun o => hit (touch r o)) (fun _ => rfl)] at hi
    exact h.dis i hi
  · unfold cached; simp only; rw [hrep.objs, ec]

/-- a hit in the small queue that moves the object to the main cache -/
theorem findSmall_promote (h : Inv c p s) {r : Req} {o : Obj Nat} (ho : o ∈ s.small.objs) (hid : o.id = r.id) (hsz : r.size = c.sz r.id)
    (hthr : c.pr = true ∧ ((o.mt + 1 : Nat) : Int) ≥ c.thr) :
    ∃ s', find s r true = .ok (true, s') ∧ Inv c p s' ∧ (cached s').Perm (cached s) ∧
      s'.small.objs = delL r.id s.small.objs ∧ s'.main.objs = Obj.ofReq () r :: s.main.objs ∧ s'.ghost = s.ghost := by
  have hm : r.id ∈ s.small.objs.map (·.id) := List.mem_map.2 ⟨o, ho, hid⟩
  obtain ⟨o', ho', hid', hf⟩ := h.small.findFIFO_hit (r := r) hm
  have hoo : o' = o := by
    have e1 := h.small.lookup_mem ho
    have e2 := h.small.lookup_mem ho'
    rw [hid'] at e2
    rw [hid] at e1
    rw [e1] at e2
    exact (Option.some.inj e2).symm
  subst hoo
  have hrep := (h.small.modify r.id (touch r) (fun _ => rfl) (fun _ => rfl)).modify r.id hit (fun _ => rfl) (fun _ => rfl)
  rw [S3FIFO.modL_modL r.id (touch r) hit (fun _ => rfl)] at hrep
  obtain ⟨f', k1, k2⟩ := hrep.remove_hit (id := r.id) (by rw [modL_ids r.id (fun o => hit (touch r o)) (fun _ => rfl)]; exact hm)
  have hdel : delL r.id (modL r.id (fun o => hit (touch r o)) s.small.objs) = delL r.id s.small.objs := by
    simp only [delL, modL, List.filter_map]
    conv_rhs => rw [← List.map_id (s.small.objs.filter _)]
    have e : ((fun x : Obj Nat => decide (x.id ≠ r.id)) ∘ fun x => if x.id = r.id then hit (touch r x) else x) = fun x : Obj Nat => decide (x.id ≠ r.id) := by
      funext x
      simp only [Function.comp]
      split <;> simp_all [hit, touch]
    rw [e]
    apply List.map_congr_left
    intro x hx
    have : x.id ≠ r.id := by have := List.of_mem_filter hx; simpa using this
    simp [this]
  rw [hdel] at k2
  have hnm : r.id ∉ s.main.objs.map (·.id) := h.dis r.id hm
  obtain ⟨m', m1, m2⟩ := h.main.insert () r hnm (sizeOk_zero r)
  have m1' : LRU.algo.insert s.main r = .ok m' := m1
  have hosz : o'.size = r.size % u32 := by
    have := (h.sized (o'.id, o'.size) (List.mem_append_left _ (List.mem_map.2 ⟨o', ho', rfl⟩))).1
    rw [hsz, ← hid]; exact this
  have hperm : (cont (delL r.id s.small.objs) ++ cont (Obj.ofReq () r :: s.main.objs)).Perm (cached s) := by
    have e1 : (cont s.small.objs).Perm ((r.id, r.size % u32) :: cont (delL r.id s.small.objs)) := by
      have := (Rep.charge_del h.small.nodup ho' hid).map (fun o => (o.id, o.size))
      rw [List.map_cons, hid, hosz] at this
      exact this
    rw [cached, cont_cons]
    exact List.perm_middle.trans (e1.append_right _).symm
  refine ⟨{ s with hitOnGhost := false, small := f', main := m' }, ?_, ?_, ?_, k2.objs, m2.objs, rfl⟩
  · rw [find, if_pos rfl, findUpdate, hf]
    simp only []
    rw [if_pos (by rw [h.prz, h.thrz]; exact hthr), k1, Res.bind_ok, m1', Res.bind_ok]
  · refine inv_mk h.csz k2 m2 ?_ (by rw [charge_perm hperm]; exact h.cap) h.ghost h.prz h.thrz ?_ (fun x hx => h.sized x (hperm.subset hx))
    · intro i hi hi'
      rw [delL_ids] at hi
      have hne : i ≠ r.id := by have := List.of_mem_filter hi; simpa using this
      simp only [List.map_cons, List.mem_cons] at hi'
      rcases hi' with hi' | hi'
      · exact hne hi'
      · exact h.dis i (List.mem_of_mem_filter hi) hi'
    · intro hd i hi hi'
      exact h.sep hd i hi ((hperm.map _).subset hi')
  · unfold cached; simp only; rw [k2.objs, m2.objs]; exact hperm

/-- a find with update that does not hit the small queue -/
theorem findMain (h : Inv c p s) {r : Req} (hm : r.id ∉ s.small.objs.map (·.id)) :
    ∃ s', find s r true = .ok (decide (r.id ∈ s.main.objs.map (·.id)), s') ∧ Inv c p s' ∧ (cached s').Perm (cached s) ∧
      s'.small = s.small ∧ (r.id ∈ s.main.objs.map (·.id) → s'.main.objs.map (·.id) = r.id :: (s.main.objs.map (·.id)).erase r.id) ∧
      (r.id ∉ s.main.objs.map (·.id) → s'.main = s.main) ∧
      (ghostIds s'.ghost).Perm ((ghostIds s.ghost).filter (fun x => x ≠ r.id)) ∧
      s'.hitOnGhost = decide (r.id ∈ ghostIds s.ghost) := by
  obtain ⟨g', hg1, hg2, hg3⟩ := ghostRemove_spec h.ghost r.id
  have hf := h.small.findFIFO_miss (u := true) hm
  have hgsub : ∀ i ∈ ghostIds g', i ∈ ghostIds s.ghost := fun i hi => List.mem_of_mem_filter (hg3.subset hi)
  by_cases hin : r.id ∈ s.main.objs.map (·.id)
  · obtain ⟨m', o, m1, m2, m3, m4⟩ := h.main.lruFind hin
    have hpm : (cont (touch r o :: delL r.id s.main.objs)).Perm (cont s.main.objs) :=
      ((Rep.charge_del h.main.nodup m2 m3).map (fun o : Obj Unit => (o.id, o.size))).symm
    have hperm : (cont s.small.objs ++ cont (touch r o :: delL r.id s.main.objs)).Perm (cached s) := hpm.append_left _
    refine ⟨{ s with hitOnGhost := decide (r.id ∈ ghostIds s.ghost), ghost := g', main := m' }, ?_, ?_, ?_, rfl, ?_, fun hx => absurd hin hx, hg3, rfl⟩
    · rw [find, if_pos rfl, findUpdate, hf]
      simp only [hg1, Res.bind_ok, m1, decide_eq_true hin]
    · refine inv_mk h.csz h.small m4 ?_ (by rw [charge_perm hperm]; exact h.cap) hg2 h.prz h.thrz ?_ (fun x hx => h.sized x (hperm.subset hx))
      · intro i hi hi'
        refine h.dis i hi ?_
        rw [← cont_ids] at hi' ⊢
        exact (hpm.map Prod.fst).subset hi'
      · intro hd i hi hi'
        exact h.sep hd i (hgsub i hi) ((hperm.map _).subset hi')
    · unfold cached; simp only; rw [m4.objs]; exact hperm
    · intro _
      simp only [m4.objs, List.map_cons, delL_ids]
      rw [show (touch r o).id = r.id from m3]
      congr 1
      exact (List.Nodup.erase_eq_filter h.main.nodup r.id |>.trans (by congr 1; funext x; by_cases hx : x = r.id <;> simp [hx])).symm
  · have m1 := h.main.lruFind_miss true hin
    refine ⟨{ s with hitOnGhost := decide (r.id ∈ ghostIds s.ghost), ghost := g' }, ?_, ?_, List.Perm.refl _, rfl, fun hx => absurd hx hin, fun _ => rfl, hg3, rfl⟩
    · rw [find, if_pos rfl, findUpdate, hf]
      simp only [hg1, Res.bind_ok, m1, decide_eq_false hin]
    · exact inv_mk h.csz h.small h.main h.dis h.cap hg2 h.prz h.thrz (fun hd i hi => h.sep hd i (hgsub i hi)) h.sized

theorem insert_spec (h : Inv c p s) (r : Req) (hok : OneSize c.sz p r) (hn : r.id ∉ (cached s).ids)
    (hroom : algo.mustEvict s r = false) (hg : p.ins = false → r.id ∉ ghostIds s.ghost) :
    ∃ s', insert s r = .ok s' ∧ Inv c p s' ∧ s'.ghost = s.ghost ∧
      ((s.hitOnGhost = true ∧ s'.small = s.small ∧ s'.main.objs = Obj.ofReq () r :: s.main.objs) ∨
       (s.hitOnGhost = false ∧ r.size > c.fs ∧ s' = s) ∨
       (s.hitOnGhost = false ∧ r.size ≤ c.fs ∧ s'.main = s.main ∧ s'.small.objs = Obj.ofReq 0 r :: s.small.objs)) := by
  rw [mem_cached, not_or] at hn
  have hroom' : charge 0 (cached s) + r.size ≤ c.cs := by
    have := (not_congr (mustEvict_iff h r)).1 (by rw [hroom]; simp)
    omega
  have hmod : r.size % u32 ≤ r.size := Nat.mod_le _ _
  have hch : charge 0 (cached s) = charge 0 (cont s.small.objs) + charge 0 (cont s.main.objs) := by
    rw [cached, charge_append]
  have hids := mem_cached s
  have hnew : ∀ x : ObjId × Nat, x = (r.id, r.size % u32) → x.2 = c.sz x.1 % u32 ∧ (p.ev = true → 0 < x.2) := by
    rintro x rfl
    exact ⟨by rw [← hok.1], hok.2⟩
  by_cases hh : s.hitOnGhost = true
  · obtain ⟨m', k1, k2⟩ := h.main.insert () r hn.2 (sizeOk_zero r)
    have k1' : LRU.algo.insert s.main r = .ok m' := k1
    refine ⟨{ s with hitOnGhost := false, main := m' }, by simp [insert, hh, k1'], ?_, rfl, Or.inl ⟨hh, rfl, k2.objs⟩⟩
    refine inv_mk h.csz h.small k2 ?_ ?_ h.ghost h.prz h.thrz ?_ ?_
    · intro i hi
      simp only [List.map_cons, List.mem_cons, not_or]
      exact ⟨fun e => hn.1 (by rw [← show i = r.id from e]; exact hi), h.dis i hi⟩
    · rw [charge_append, cont_cons, charge]
      simp only [Obj.ofReq]
      omega
    · intro hd i hi hi'
      rw [Contents.ids, List.map_append, List.mem_append, cont_cons, List.map_cons, List.mem_cons] at hi'
      rcases hi' with hi' | hi' | hi'
      · exact h.sep hd i hi ((hids i).2 (Or.inl (by rw [← cont_ids]; exact hi')))
      · exact hg hd (by rw [← show i = r.id from hi']; exact hi)
      · exact h.sep hd i hi ((hids i).2 (Or.inr (by rw [← cont_ids]; exact hi')))
    · intro x hx
      rw [List.mem_append, cont_cons, List.mem_cons] at hx
      rcases hx with hx | hx | hx
      · exact h.sized x (List.mem_append_left _ hx)
      · exact hnew x hx
      · exact h.sized x (List.mem_append_right _ hx)
  · have hh' : s.hitOnGhost = false := by simpa using hh
    by_cases hsz : r.size > c.fs
    · refine ⟨s, ?_, h, rfl, Or.inr (Or.inl ⟨hh', hsz, rfl⟩)⟩
      simp [insert, hh', h.small.csz, hsz]
    · obtain ⟨f', k1, k2⟩ := h.small.insert 0 r hn.1 (sizeOk_zero r)
      refine ⟨{ s with small := f' }, ?_, ?_, rfl, Or.inr (Or.inr ⟨hh', by omega, rfl, k2.objs⟩)⟩
      · simp [insert, hh', h.small.csz, hsz, k1]
      · refine inv_mk h.csz k2 h.main ?_ ?_ h.ghost h.prz h.thrz ?_ ?_
        · intro i hi
          simp only [List.map_cons, List.mem_cons] at hi
          rcases hi with hi | hi
          · rw [show i = r.id from hi]; exact hn.2
          · exact h.dis i hi
        · rw [charge_append, cont_cons, charge]
          simp only [Obj.ofReq]
          omega
        · intro hd i hi hi'
          rw [Contents.ids, List.map_append, List.mem_append, cont_cons, List.map_cons, List.mem_cons] at hi'
          rcases hi' with (hi' | hi') | hi'
          · exact hg hd (by rw [← show i = r.id from hi']; exact hi)
          · exact h.sep hd i hi ((hids i).2 (Or.inl (by rw [← cont_ids]; exact hi')))
          · exact h.sep hd i hi ((hids i).2 (Or.inr (by rw [← cont_ids]; exact hi')))
        · intro x hx
          rw [List.mem_append, cont_cons, List.mem_cons] at hx
          rcases hx with (hx | hx) | hx
          · exact hnew x hx
          · exact h.sized x (List.mem_append_left _ hx)
          · exact h.sized x (List.mem_append_right _ hx)

/-- `remove` -/
theorem remove_spec (h : Inv c p s) (id : ObjId) :
    ∃ s', remove s id = .ok (decide (id ∈ (cached s).ids ∨ id ∈ ghostIds s.ghost), s') ∧ Inv c p s' ∧
      List.Sublist (cached s') (cached s) ∧ (p.ins = false → cached s' = (cached s).filter (fun x => x.1 ≠ id)) ∧
      (∀ o ∈ s'.small.objs, o ∈ s.small.objs) ∧ (∀ i ∈ ghostIds s'.ghost, i ∈ ghostIds s.ghost) := by
  have hids := mem_cached s
  by_cases hf : id ∈ s.small.objs.map (·.id)
  · obtain ⟨f', k1, k2⟩ := h.small.remove_hit hf
    have ec : cont (delL id s.small.objs) ++ cont s.main.objs = (cached s).filter (fun x => x.1 ≠ id) := by
      rw [cached, List.filter_append, delL_cont]
      congr 1
      symm
      exact filter_ids_eq (by rw [cont_ids]; exact h.dis id hf)
    have hs : List.Sublist (cont (delL id s.small.objs) ++ cont s.main.objs) (cached s) :=
      List.Sublist.append (S3FIFO.delL_sublist _ _) (List.Sublist.refl _)
    have ec' : cached { s with small := f' } = cont (delL id s.small.objs) ++ cont s.main.objs := by unfold cached; simp only; rw [k2.objs]
    have hinc : id ∈ (cached s).ids := (hids id).2 (Or.inl hf)
    refine ⟨{ s with small := f' }, by simp [remove, k1, hinc], ?_, by rw [ec']; exact hs, fun _ => by rw [ec', ec], ?_, fun i hi => hi⟩
    · refine inv_mk h.csz k2 h.main ?_ (Nat.le_trans (charge_sublist hs) h.cap) h.ghost h.prz h.thrz ?_ (fun x hx => h.sized x (hs.subset hx))
      · intro i hi
        rw [delL_ids] at hi
        exact h.dis i (List.mem_of_mem_filter hi)
      · intro hd i hi hi'
        exact h.sep hd i hi ((List.Sublist.map _ hs).subset hi')
    · intro o ho
      simp only [k2.objs] at ho
      exact List.mem_of_mem_filter ho
  · have k1 := h.small.remove_miss hf
    obtain ⟨g', g1, g2, g3⟩ := ghostRemove_spec h.ghost id
    have hgsub : ∀ i ∈ ghostIds g', i ∈ ghostIds s.ghost := fun i hi => List.mem_of_mem_filter (g3.subset hi)
    by_cases hgm : id ∈ ghostIds s.ghost
    · refine ⟨{ s with ghost := g' }, by simp [remove, k1, g1, hgm], ?_, List.Sublist.refl _, ?_, fun o ho => ho, hgsub⟩
      · exact inv_mk h.csz h.small h.main h.dis h.cap g2 h.prz h.thrz (fun hd i hi => h.sep hd i (hgsub i hi)) h.sized
      · intro hd
        rw [filter_ids_eq (h.sep hd id hgm)]; rfl
    · by_cases hm : id ∈ s.main.objs.map (·.id)
      · obtain ⟨m', m1, m2⟩ := h.main.remove_hit hm
        have m1' : LRU.algo.remove s.main id = .ok (true, m') := m1
        have hs : List.Sublist (cont s.small.objs ++ cont (delL id s.main.objs)) (cached s) :=
          List.Sublist.append (List.Sublist.refl _) (S3FIFO.delL_sublist _ _)
        have ec : cont s.small.objs ++ cont (delL id s.main.objs) = (cached s).filter (fun x => x.1 ≠ id) := by
          rw [cached, List.filter_append, delL_cont]
          congr 1
          symm
          exact filter_ids_eq (by rw [cont_ids]; exact hf)
        have ec' : cached { s with ghost := g', main := m' } = cont s.small.objs ++ cont (delL id s.main.objs) := by unfold cached; simp only; rw [m2.objs]
        have hinc : id ∈ (cached s).ids := (hids id).2 (Or.inr hm)
        refine ⟨{ s with ghost := g', main := m' }, by simp [remove, k1, g1, hgm, m1', hinc], ?_, by rw [ec']; exact hs, fun _ => by rw [ec', ec], fun o ho => ho, hgsub⟩
        refine inv_mk h.csz h.small m2 ?_ (Nat.le_trans (charge_sublist hs) h.cap) g2 h.prz h.thrz ?_ (fun x hx => h.sized x (hs.subset hx))
        · intro i hi hi'
          rw [delL_ids] at hi'
          exact h.dis i hi (List.mem_of_mem_filter hi')
        · intro hd i hi hi'
          exact h.sep hd i (hgsub i hi) ((List.Sublist.map _ hs).subset hi')
      · have m1 : LRU.algo.remove s.main id = .ok (false, s.main) := h.main.remove_miss hm
        have hnc : id ∉ (cached s).ids := fun hx => ((hids id).1 hx).elim hf hm
        refine ⟨{ s with ghost := g' }, by simp [remove, k1, g1, hgm, m1, hnc], ?_, List.Sublist.refl _, ?_, fun o ho => ho, hgsub⟩
        · exact inv_mk h.csz h.small h.main h.dis h.cap g2 h.prz h.thrz (fun hd i hi => h.sep hd i (hgsub i hi)) h.sized
        · intro _
          rw [filter_ids_eq hnc]; rfl

/-! ### The contract -/

/-- What `get` needs when it starts evicting. -/
def Ready (c : Cfg) (p : Perms) (s : State) (r : Req) : Prop := r.size ≤ c.fs ∧ (p.ins = false → r.id ∉ ghostIds s.ghost)

theorem find_hit (h : Inv c p s) {r : Req} (hok : r.size = c.sz r.id) (hin : r.id ∈ (cached s).ids) :
    ∃ s', find s r true = .ok (true, s') ∧ Inv c p s' ∧ (cached s').Perm (cached s) := by
  by_cases hf : r.id ∈ s.small.objs.map (·.id)
  · obtain ⟨o, ho, hid⟩ := List.mem_map.1 hf
    by_cases hthr : c.pr = true ∧ ((o.mt + 1 : Nat) : Int) ≥ c.thr
    · obtain ⟨s', h1, h2, h3, _⟩ := findSmall_promote h ho hid hok hthr
      exact ⟨s', h1, h2, h3⟩
    · obtain ⟨s', h1, h2, h3, _⟩ := findSmall_stay h ho hid hthr
      exact ⟨s', h1, h2, by rw [h3]⟩
  · have hm : r.id ∈ s.main.objs.map (·.id) := ((mem_cached s r.id).1 hin).resolve_left hf
    obtain ⟨s', h1, h2, h3, _⟩ := findMain h hf
    rw [decide_eq_true hm] at h1
    exact ⟨s', h1, h2, h3⟩

theorem find_miss (h : Inv c p s) {r : Req} (hin : r.id ∉ (cached s).ids) :
    ∃ s', find s r true = .ok (false, s') ∧ Inv c p s' ∧ s'.small = s.small ∧ s'.main = s.main ∧ r.id ∉ ghostIds s'.ghost ∧
      s'.hitOnGhost = decide (r.id ∈ ghostIds s.ghost) := by
  rw [mem_cached, not_or] at hin
  obtain ⟨s', h1, h2, _, h4, _, h6, h7, h8⟩ := findMain h hin.1
  rw [decide_eq_false hin.2] at h1
  refine ⟨s', h1, h2, h4, h6 hin.2, ?_, h8⟩
  intro hx
  have := h7.subset hx
  simp at this

theorem pos_of_nonempty (h : Inv c p s) (hp : p.ev = true) (hne : cached s ≠ []) : 0 < charge 0 (cached s) := by
  obtain ⟨x, l, e⟩ := List.exists_cons_of_ne_nil hne
  have := (h.sized x (by rw [e]; simp)).2 hp
  rw [e]
  simp only [charge]
  omega

theorem contract (c : Cfg) {p : Perms} (hp : p.upd = false) :
    OneByOne algo cached (Inv c p) (Ready c p) measure c.cs 0 p (OneSize c.sz p) where
  csz := fun h => h.csz
  mdz := fun _ => rfl
  nodup := fun h => h.nodup
  occ := fun h => h.occ
  nObj := fun {s} h => by
    show s.small.base.nObj + s.main.base.nObj = _
    rw [h.small.nObj, h.main.nObj, cached, List.length_append, cont_length, cont_length]; push_cast; rfl
  cap := fun h => by rw [h.occ]; have := h.cap; omega
  bump := fun h => ⟨bump_inv h, rfl⟩
  findF := fun _ _ r h => find_false h r
  findHit := fun {s} r h hin hfr => by
    rcases hfr with hfr | ⟨hok, _⟩
    · rw [hp] at hfr; simp at hfr
    · obtain ⟨s', h1, h2, h3⟩ := find_hit h hok.1 hin
      exact ⟨s', h1, h2, h3.subperm⟩
  findMiss := fun {s} r h hin _ => by
    obtain ⟨s', h1, h2, h3, h4, h5, _⟩ := find_miss h hin
    have ec : cached s' = cached s := by unfold cached; rw [h3, h4]
    refine ⟨s', h1, h2, by rw [ec], h2, by show (cached s').Perm _; rw [ec], ?_⟩
    intro hc _
    have hc' : decide (r.size ≤ s'.small.base.cacheSize) = true := hc
    rw [h2.small.csz] at hc'
    exact ⟨by simpa using hc', fun _ => h5⟩
  fuel := fun {s} h => by
    show measure s ≤ 2 * s.small.base.tbl.length + s.main.base.tbl.length
    rw [measure, h.small.perm.length_eq, h.main.perm.length_eq]
    exact Nat.le_refl _
  evictLoop := fun {s} r h _ hr hn hme => by
    have hpos : 0 < charge 0 (cached s) := by
      rw [mustEvict_iff h] at hme
      have := hr.1
      have := c.le
      omega
    obtain ⟨s', vs, k1, k2, k3, k4, k5, k6, k7, _⟩ := evict_spec h hpos r
    refine ⟨s', k1, k2, ⟨hr.1, fun hd hx => ?_⟩, ?_, k5⟩
    · rcases k7 _ hx with hx | hx
      · exact hr.2 hd hx
      · exact hn hx
    · exact (List.Sublist.subperm (List.sublist_append_right vs _)).trans k4.symm.subperm
  insert := fun {s} r h hok hr hn hme => by
    obtain ⟨s', k1, k2, k3, k4⟩ := insert_spec h r hok hn hme hr.2
    refine ⟨s', k1, k2, ?_⟩
    rcases k4 with ⟨_, e1, e2⟩ | ⟨_, _, rfl⟩ | ⟨_, _, e1, e2⟩
    · unfold cached; rw [e1, e2]
      exact List.perm_middle.subperm
    · exact List.Sublist.subperm (List.sublist_cons_self _ _)
    · unfold cached; rw [e1, e2]
      exact List.Subperm.refl _
  userInsert := fun hpi {s} r h hok hn hme => by
    obtain ⟨s', k1, k2, k3, k4⟩ := insert_spec h r hok hn hme (fun hd => by rw [hpi] at hd; simp at hd)
    refine ⟨s', k1, k2, ?_⟩
    rcases k4 with ⟨_, e1, e2⟩ | ⟨_, _, rfl⟩ | ⟨_, _, e1, e2⟩
    · unfold cached; rw [e1, e2]
      exact List.perm_middle.subperm
    · exact List.Sublist.subperm (List.sublist_cons_self _ _)
    · unfold cached; rw [e1, e2]
      exact List.Subperm.refl _
  remove := fun _ {s} id h => by
    obtain ⟨s', k1, k2, k3, _⟩ := remove_spec h id
    exact ⟨_, s', k1, k2, k3.subperm⟩
  evict := fun he {s} r h hne => by
    obtain ⟨s', vs, k1, k2, k3, k4, _⟩ := evict_spec h (pos_of_nonempty h he hne) r
    exact ⟨s', k1, k2, (List.Sublist.subperm (List.sublist_append_right vs _)).trans k4.symm.subperm⟩
  evictAtMostOne := fun {s s'} r h _ hr _ hme he => by
    have hpos : 0 < charge 0 (cached s) := by
      rw [mustEvict_iff h] at hme
      have := hr.1
      have := c.le
      omega
    obtain ⟨s'', vs, k1, k2, k3, k4, _⟩ := evict_spec h hpos r
    rw [show algo.evict s r = evict s r from rfl, k1] at he
    cases he
    exact ⟨vs, k3, k4⟩

theorem insertOr : InsertOr algo cached (Inv c p) (Ready c p) (OneSize c.sz p) := by
  intro s s' r h hok hr hn hme hi
  obtain ⟨s'', k1, k2, k3, k4⟩ := insert_spec h r hok hn hme hr.2
  rw [show algo.insert s r = insert s r from rfl, k1] at hi
  cases hi
  rcases k4 with ⟨_, e1, e2⟩ | ⟨_, _, rfl⟩ | ⟨_, _, e1, e2⟩
  · left; unfold cached; rw [e1, e2]
    exact List.perm_middle
  · right; exact List.Perm.refl _
  · left; unfold cached; rw [e1, e2]
    exact List.Perm.refl _

theorem evictOnDemand (c : Cfg) {p : Perms} (hp : p.upd = false) : EvictOnDemand algo cached (init c.cs c.fs c.gs c.pr c.thr) (Calls p (OneSize c.sz p)) c.cs 0 :=
  (contract c hp).evictOnDemand (inv_init c p) (fun {s s'} r hi hok hf => by
    by_cases hin : r.id ∈ (cached s).ids
    · obtain ⟨s1, h1, _, h3⟩ := find_hit (bump_inv hi) hok.1 hin
      rw [show algo.find (algo.bump s) r true = find (algo.bump s) r true from rfl, h1] at hf
      cases hf
      exact h3
    · obtain ⟨s1, h1, _⟩ := find_miss (bump_inv hi) hin
      rw [show algo.find (algo.bump s) r true = find (algo.bump s) r true from rfl, h1] at hf
      cases hf) insertOr

/-! ### Whole `get` calls -/

/-- ids and hits of the objects of the small queue -/
def counts (l : List (Obj Nat)) : List (ObjId × Nat) := l.map (fun o => (o.id, o.mt))

theorem get_hit_spec (hp : p.upd = false) (h : Inv c p s) {r : Req} {s' : State} (hok : r.size = c.sz r.id) (hg : algo.get s r = .ok (true, s')) :
    (∃ o ∈ s.small.objs, o.id = r.id ∧
      ((c.pr = true ∧ c.thr ≤ o.mt + 1 ∧ counts s'.small.objs = (counts s.small.objs).filter (fun x => x.1 ≠ r.id) ∧
          s'.main.objs.map (·.id) = r.id :: s.main.objs.map (·.id)) ∨
       (¬ (c.pr = true ∧ c.thr ≤ o.mt + 1) ∧ counts s'.small.objs = countHit r.id (counts s.small.objs) ∧ s'.main = s.main))) ∨
    (r.id ∈ s.main.objs.map (·.id) ∧ s'.small = s.small ∧ s'.main.objs.map (·.id) = r.id :: (s.main.objs.map (·.id)).erase r.id) := by
  have hb : Inv c p (algo.bump s) := bump_inv h
  have hin : r.id ∈ (cached s).ids := by
    by_contra hn
    obtain ⟨s1, h1, _⟩ := find_miss hb hn
    have h1' : algo.find (algo.bump s) r true = .ok (false, s1) := h1
    simp only [Algo.get, h1', Res.bind_ok] at hg
    simp only [Bool.false_eq_true, if_false] at hg
    split at hg
    · cases hg
    · rw [Res.bind_eq_ok] at hg
      obtain ⟨_, _, hg⟩ := hg
      rw [Res.bind_eq_ok] at hg
      obtain ⟨_, _, hg⟩ := hg
      cases hg
  by_cases hf : r.id ∈ s.small.objs.map (·.id)
  · obtain ⟨o, ho, hid⟩ := List.mem_map.1 hf
    left
    refine ⟨o, ho, hid, ?_⟩
    by_cases hthr : c.pr = true ∧ ((o.mt + 1 : Nat) : Int) ≥ c.thr
    · obtain ⟨s1, h1, h2, h3, h4, h5, _⟩ := findSmall_promote hb ho hid hok hthr
      rw [get_hit (A := algo) h1] at hg
      cases hg
      left
      refine ⟨hthr.1, hthr.2, ?_, by rw [h5]; rfl⟩
      rw [h4]
      simp only [counts, delL, List.filter_map]
      rfl
    · obtain ⟨s1, h1, h2, h3, h4, h5, _⟩ := findSmall_stay hb ho hid hthr
      rw [get_hit (A := algo) h1] at hg
      cases hg
      right
      refine ⟨hthr, ?_, h5⟩
      rw [h4]
      simp only [counts, modL, countHit, List.map_map]
      apply List.map_congr_left
      intro o _
      by_cases he : o.id = r.id
      · simp [he, bumped, hit, touch]
      · simp [he]
  · have hm : r.id ∈ s.main.objs.map (·.id) := ((mem_cached s r.id).1 hin).resolve_left hf
    obtain ⟨s1, h1, _, _, h4, h5, _⟩ := findMain hb hf
    rw [show decide (r.id ∈ (algo.bump s).main.objs.map (·.id)) = true from decide_eq_true hm] at h1
    rw [get_hit (A := algo) h1] at hg
    cases hg
    exact Or.inr ⟨hm, h4, h5 hm⟩

theorem evictLoop_rel (r : Req) (hle : r.size ≤ c.cs) : ∀ (n : Nat) (s s' : State), Inv c p s → algo.evictLoop r n s = .ok s' →
    (∀ o ∈ s'.small.objs, o ∈ s.small.objs) ∧ s'.hitOnGhost = s.hitOnGhost := by
  intro n
  induction n with
  | zero =>
    intro s s' _ he
    simp only [Algo.evictLoop] at he
    split at he
    · simp at he
    · cases he; exact ⟨fun o ho => ho, rfl⟩
  | succ n ih =>
    intro s s' h he
    simp only [Algo.evictLoop] at he
    split at he
    · rename_i hme
      have hpos : 0 < charge 0 (cached s) := by
        rw [mustEvict_iff h] at hme
        omega
      obtain ⟨s1, vs, k1, k2, k3, k4, k5, k6, k7, k8, _⟩ := evict_spec h hpos r
      rw [show algo.evict s r = evict s r from rfl, k1, Res.bind_ok] at he
      obtain ⟨e1, e2⟩ := ih s1 s' k2 he
      exact ⟨fun o ho => k8 o (e1 o ho), by rw [e2, k6]⟩
    · cases he; exact ⟨fun o ho => ho, rfl⟩

/-- a `get` that misses -/
theorem get_miss (hp : p.upd = false) (h : Inv c p s) {r : Req} {s' : State} (hok : OneSize c.sz p r) (hg : algo.get s r = .ok (false, s')) :
    (r.size > c.fs → s'.small = s.small ∧ s'.main = s.main) ∧
    (∀ o ∈ s'.small.objs, (o.id ≠ r.id ∧ o ∈ s.small.objs) ∨ (o.id = r.id ∧ o.mt = 0)) ∧
    (r.size ≤ c.fs → r.id ∈ ghostIds s.ghost → (s'.main.objs.map (·.id)).head? = some r.id ∧ (r.id, r.size % u32) ∈ cached s') ∧
    (r.size ≤ c.fs → r.id ∉ ghostIds s.ghost → (s'.small.objs.map (·.id)).head? = some r.id ∧ (r.id, r.size % u32) ∈ cached s') := by
  have C := contract c hp
  have hin : r.id ∉ (cached s).ids := by
    intro hin
    obtain ⟨s1, h1, _⟩ := find_hit (bump_inv h) hok.1 hin
    rw [get_hit (A := algo) h1] at hg
    cases hg
  obtain ⟨s1, hf, hi1, hcase⟩ := C.miss r hok h hin
  obtain ⟨s1', h1, h2, h3, h4, h5, h6⟩ := find_miss (bump_inv h) hin
  rw [show algo.find (algo.bump s) r true = find (algo.bump s) r true from rfl, h1] at hf
  cases hf
  have hcan : algo.canInsert s1 r = (decide (r.size ≤ c.fs), s1) := by
    show (decide (r.size ≤ s1.small.base.cacheSize), s1) = _
    rw [hi1.small.csz]
  rw [hcan] at hcase
  simp only at hcase
  have hnf : ∀ o ∈ s.small.objs, o.id ≠ r.id := fun o ho e =>
    hin ((mem_cached s r.id).2 (Or.inl (List.mem_map.2 ⟨o, ho, e⟩)))
  have e3 : s1.small.objs = s.small.objs := congrArg QState.objs h3
  rcases hcase with ⟨hno, hg', _⟩ | ⟨hyes, s3, s4, vs, hg', h3i, hrd, hn3, hme3, hins, _, hloop, _⟩
  · rw [hg'] at hg; cases hg
    have hfs : ¬ r.size ≤ c.fs := by simpa using hno
    refine ⟨fun _ => ⟨h3, h4⟩, fun o ho => ?_, fun hx => absurd hx hfs, fun hx => absurd hx hfs⟩
    rw [e3] at ho
    exact Or.inl ⟨hnf o ho, ho⟩
  · rw [hg'] at hg; cases hg
    have hle : r.size ≤ c.fs := by simpa using hyes
    obtain ⟨e1, e2⟩ := evictLoop_rel r (Nat.le_trans hle c.le) _ _ _ hi1 hloop
    obtain ⟨s4', k1, k2, k3, k4⟩ := insert_spec h3i r hok hn3 hme3 hrd.2
    rw [show algo.insert s3 r = insert s3 r from rfl, k1] at hins
    cases hins
    have hsm : ∀ o ∈ s3.small.objs, o ∈ s.small.objs := fun o ho => by rw [← e3]; exact e1 o ho
    have hfl : s3.hitOnGhost = decide (r.id ∈ ghostIds s.ghost) := by rw [e2, h6]; rfl
    refine ⟨fun hx => absurd hle (by omega), ?_, ?_, ?_⟩
    · intro o ho
      rcases k4 with ⟨_, e1, _⟩ | ⟨_, _, e1⟩ | ⟨_, _, _, e1⟩
      · rw [e1] at ho; exact Or.inl ⟨hnf o (hsm o ho), hsm o ho⟩
      · rw [e1] at ho; exact Or.inl ⟨hnf o (hsm o ho), hsm o ho⟩
      · rw [e1] at ho
        rcases List.mem_cons.1 ho with rfl | ho
        · exact Or.inr ⟨rfl, rfl⟩
        · exact Or.inl ⟨hnf o (hsm o ho), hsm o ho⟩
    · intro _ hgm
      rw [decide_eq_true hgm] at hfl
      rcases k4 with ⟨_, _, e2⟩ | ⟨hh, _⟩ | ⟨hh, _⟩
      · unfold cached; rw [e2]; exact ⟨rfl, List.mem_append_right _ (by simp [Obj.ofReq])⟩
      · rw [hfl] at hh; cases hh
      · rw [hfl] at hh; cases hh
    · intro _ hgm
      rw [decide_eq_false hgm] at hfl
      rcases k4 with ⟨hh, _⟩ | ⟨_, hgt, _⟩ | ⟨_, _, _, e1⟩
      · rw [hfl] at hh; cases hh
      · omega
      · unfold cached; rw [e1]; exact ⟨rfl, List.mem_append_left _ (by simp [Obj.ofReq])⟩

/-! ### Frequencies count hits -/

/-- the hits kept with the objects of the small queue are those of the history -/
def FreqOk (s : State) (h : List (Op × Bool)) : Prop := ∀ o ∈ s.small.objs, o.mt = hitsSince h o.id

theorem step_freq (hp : p.upd = false) {s' : State} {b : Bool} {op : Op}
    {h : List (Op × Bool)} (hi : Inv c p s) (hop : Calls p (OneSize c.sz p) op) (hf : FreqOk s h)
    (hs : algo.step s op = .ok (b, s')) : FreqOk s' (h ++ [(op, b)]) := by
  intro o ho
  rw [S3FIFO.hitsSince_append]
  cases op with
  | get r =>
    have hs' : algo.get s r = .ok (b, s') := hs
    cases b with
    | true =>
      have key : ∀ {l l' : List (ObjId × Nat)}, l' = countHit r.id l → ∀ x ∈ l', (x.1 ≠ r.id ∧ x ∈ l) ∨ (x.1 = r.id ∧ ∃ y ∈ l, y.1 = r.id ∧ x.2 = y.2 + 1) := by
        intro l l' e x hx
        rw [e] at hx
        obtain ⟨y, hy, rfl⟩ := List.mem_map.1 hx
        by_cases he : y.1 = r.id
        · right; rw [if_pos he]; exact ⟨he, y, hy, he, rfl⟩
        · left; rw [if_neg he]; exact ⟨he, hy⟩
      have hc : (o.id, o.mt) ∈ counts s'.small.objs := List.mem_map.2 ⟨o, ho, rfl⟩
      have back : ∀ {x : ObjId × Nat}, x ∈ counts s.small.objs → x.2 = hitsSince h x.1 := by
        intro x hx
        obtain ⟨o', ho', rfl⟩ := List.mem_map.1 hx
        exact hf o' ho'
      rcases get_hit_spec hp hi hop.1 hs' with ⟨o1, _, _, ⟨_, _, h1, _⟩ | ⟨_, h1, _⟩⟩ | ⟨hm, h1, _⟩
      · rw [h1] at hc
        have hne : o.id ≠ r.id := by have := List.of_mem_filter hc; simpa using this
        simp only [hitStep, if_neg (Ne.symm hne)]
        exact back (List.mem_of_mem_filter hc)
      · rcases key h1 _ hc with ⟨hne, hx⟩ | ⟨he, y, hy, hye, hm⟩
        · simp only [hitStep, if_neg (Ne.symm hne)]
          exact back hx
        · have he' : o.id = r.id := he
          have hm' : o.mt = y.2 + 1 := hm
          simp only [hitStep, if_pos he'.symm, if_true]
          rw [hm', back hy, hye, he']
      · rw [h1] at ho
        have hne : o.id ≠ r.id := fun e => hi.dis r.id (List.mem_map.2 ⟨o, ho, e⟩) hm
        simp only [hitStep, if_neg (Ne.symm hne)]
        exact hf o ho
    | false =>
      rcases (get_miss hp hi hop hs').2.1 o ho with ⟨hne, ho⟩ | ⟨he, hmt⟩
      · simp only [hitStep, if_neg (Ne.symm hne)]; exact hf o ho
      · simp only [hitStep, if_pos he.symm, Bool.false_eq_true, if_false]; exact hmt
  | find r u =>
    cases u with
    | false =>
      have hs' : find s r false = .ok (b, s') := hs
      rw [find_false hi] at hs'
      cases hs'
      exact hf o ho
    | true =>
      have : p.upd = true := hop
      rw [hp] at this; cases this
  | remove id =>
    obtain ⟨s'', k1, k2, k3, k4, k5, k6⟩ := remove_spec hi id
    have hs' : remove s id = .ok (b, s') := hs
    rw [k1] at hs'
    cases hs'
    exact hf o (k5 o ho)
  | evict r =>
    simp only [Algo.step] at hs
    split at hs
    · rename_i hpos
      have hne : cached s ≠ [] := by
        intro e
        have := (contract c hp).nObj hi
        rw [e] at this
        simp only [List.length_nil] at this
        rw [this] at hpos
        simp at hpos
      have he : p.ev = true := hop
      obtain ⟨s1, vs, k1, k2, k3, k4, k5, k6, k7, k8, _⟩ := evict_spec hi (pos_of_nonempty hi he hne) r
      rw [show algo.evict s r = evict s r from rfl, k1, Res.bind_ok] at hs
      cases hs
      exact hf o (k8 o ho)
    · cases hs; exact hf o ho
  | insert r =>
    simp only [Algo.step] at hs
    rw [show algo.find s r false = find s r false from rfl, find_false hi, Res.bind_ok] at hs
    simp only at hs
    split at hs
    · rename_i hc
      have hn : r.id ∉ (cached s).ids := by simpa using hc.1
      obtain ⟨s1, k1, k2, k3, k4⟩ := insert_spec hi r hop.2 hn hc.2 (fun hd => by have := hop.1; rw [hd] at this; simp at this)
      rw [show algo.insert s r = insert s r from rfl, k1, Res.bind_ok] at hs
      cases hs
      have hnf : ∀ o ∈ s.small.objs, r.id ≠ o.id := fun o ho e =>
        hn ((mem_cached s r.id).2 (Or.inl (List.mem_map.2 ⟨o, ho, e.symm⟩)))
      rcases k4 with ⟨_, e1, _⟩ | ⟨_, _, e1⟩ | ⟨_, _, _, e1⟩
      · rw [e1] at ho; simp only [hitStep, if_neg (hnf o ho)]; exact hf o ho
      · rw [e1] at ho; simp only [hitStep, if_neg (hnf o ho)]; exact hf o ho
      · rw [e1] at ho
        rcases List.mem_cons.1 ho with rfl | ho
        · simp [hitStep, Obj.ofReq]
        · simp only [hitStep, if_neg (hnf o ho)]; exact hf o ho
    · cases hs; exact hf o ho

theorem reach_freq (hp : p.upd = false) {s0 : State}
    (h0 : Inv c p s0) (he : s0.small.objs = []) : ∀ (ops : List Op) (out : List Bool) (s : State),
    (∀ op ∈ ops, Calls p (OneSize c.sz p) op) → Reaches algo s0 ops out s →
    FreqOk s (ops.zip out) ∧ ops.length = out.length := by
  have C := contract c hp
  intro ops
  induction ops using List.reverseRecOn with
  | nil =>
    intro out s _ h
    simp only [Reaches, Algo.run] at h
    cases h
    exact ⟨by intro o ho; rw [he] at ho; simp at ho, rfl⟩
  | append_singleton ops op ih =>
    intro out s ho h
    have ho' : ∀ o ∈ ops, Calls p (OneSize c.sz p) o := fun o h => ho o (by simp [h])
    obtain ⟨out1, s1, hr1, hi1⟩ := C.run ops h0 ho'
    obtain ⟨hf1, hl1⟩ := ih out1 s1 ho' hr1
    unfold Reaches at h
    rw [run_append, hr1] at h
    obtain ⟨b, s2, hst, hi2, _⟩ := C.step op (ho op (by simp)) hi1
    simp only [Algo.run, hst, Res.bind_ok] at h
    cases h
    refine ⟨?_, by simp [hl1]⟩
    rw [S3FIFO.zip_append_single _ _ _ _ hl1]
    exact step_freq hp hi1 (ho op (by simp)) hf1 hst

end S3LRU
end Verif
