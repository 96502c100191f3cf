import Verif.Proof.Ghost
import Verif.Spec.History
import Verif.Spec.SecondChance
import Verif.Proof.QRep
import Verif.Proof.LRU
import Verif.Algo.S3FIFO
/-!
# S3FIFO meets the `Medium` contract
-/

namespace Verif
open Spec

namespace S3FIFO

/-! ### The two eviction loops -/

/-- the object as it enters the main queue from the small queue -/
def fresh (o : Obj Nat) : Obj Nat := { id := o.id, size := o.size, miscNext := o.miscNext, miscFreq := o.miscFreq, mt := 0 }

/-- the object as it is reinserted into the main queue -/
def demote (o : Obj Nat) : Obj Nat :=
  { id := o.id, size := o.size, miscNext := o.miscNext, miscFreq := (o.mt : Int), mt := min o.mt 3 - 1 }

theorem modL_cons_self {μ : Type} {f : Obj μ → Obj μ} {o : Obj μ} {l : List (Obj μ)} (h : o.id ∉ l.map (·.id)) :
    modL o.id f (o :: l) = f o :: l := by
  have : l.map (fun x => if x.id = o.id then f x else x) = l := by
    conv_rhs => rw [← List.map_id l]
    apply List.map_congr_left
    intro x hx
    have : x.id ≠ o.id := fun e => h (List.mem_map.2 ⟨x, hx, e⟩)
    simp [this]
  simp [modL, this]

theorem cont_fresh (l : List (Obj Nat)) : cont (l.map fresh) = cont l := by
  simp [cont, fresh, Function.comp_def]

/-- ids and hit counts of a queue, youngest first -/
def counts (l : List (Obj Nat)) : List (ObjId × Nat) := l.map (fun o => (o.id, o.mt))

theorem evictMain_spec {ms : Nat} : ∀ (n : Nat) (s : State) (lm : List (Obj Nat)), Rep ms 0 s.main lm →
    (lm.map (·.mt)).sum < n → 0 < charge 0 (cont lm) →
    ∃ m' lm' v, evictMain n s = .ok { s with main := m' } ∧ Rep ms 0 m' lm' ∧ (cont lm).Perm (v :: cont lm') ∧
      SecondChance 3 (counts lm) v.1 (counts lm') := by
  intro n
  induction n with
  | zero => intro s lm _ h; omega
  | succ n ih =>
    intro s lm h hlt hpos
    obtain ⟨l, o, rfl⟩ := exists_last_of_charge hpos
    have hocc : s.main.base.occ > 0 := by rw [h.occ]; omega
    have ht := h.tailObj rfl
    have hsz : o.size + 0 < u32 := h.small o (by simp)
    have hmem : o.id ∈ (l ++ [o]).map (·.id) := by simp
    obtain ⟨m1, hr, hrep⟩ := h.remove_hit hmem
    rw [delL_last h.nodup] at hrep
    have hnot : o.id ∉ l.map (·.id) := by
      have := h.nodup
      rw [List.map_append, List.nodup_append] at this
      intro hx
      exact this.2.2 o.id hx o.id (by simp) rfl
    by_cases hf : o.mt ≥ 1
    · obtain ⟨m2, hi, hrep2⟩ := hrep.insert 0 o.toReq hnot (sizeOk_zero _)
      have hrep3 := hrep2.modify o.id (fun x => { x with mt := min o.mt 3 - 1, miscFreq := (o.mt : Int) })
        (fun _ => rfl) (fun _ => rfl)
      have hofr : (Obj.ofReq 0 o.toReq : Obj Nat).id = o.id := rfl
      rw [← hofr, modL_cons_self (by rw [hofr]; exact hnot)] at hrep3
      have hd : ({ (Obj.ofReq 0 o.toReq : Obj Nat) with mt := min o.mt 3 - 1, miscFreq := (o.mt : Int) } : Obj Nat) = demote o := by
        have hs : o.size % u32 = o.size := Nat.mod_eq_of_lt (by omega)
        simp only [Obj.ofReq, Obj.toReq, demote, hs]
      rw [hd, hofr] at hrep3
      have hc : (cont (l ++ [o])).Perm (cont (demote o :: l)) := by
        rw [cont_append]
        exact List.perm_append_comm
      have hsum : ((demote o :: l).map (·.mt)).sum < n := by
        simp only [List.map_append, List.map_cons, List.map_nil, List.sum_append, List.sum_cons, List.sum_nil, demote] at hlt ⊢
        omega
      obtain ⟨m', lm', v, k1, k2, k3, k4⟩ := ih { s with main := m2.modify o.id (fun x => { x with mt := min o.mt 3 - 1, miscFreq := (o.mt : Int) }) } _ hrep3 hsum (by rw [← charge_perm hc]; exact hpos)
      refine ⟨m', lm', v, ?_, k2, hc.trans k3, by simp only [counts, List.map_append]; exact .again _ _ _ _ _ hf k4⟩
      rw [evictMain]
      simp only [hocc, if_true, ht, Res.bind_ok, hf, hr, hi]
      exact k1
    · refine ⟨m1, l, (o.id, o.size), ?_, hrep, ?_, ?_⟩
      · rw [evictMain]
        simp only [hocc, if_true, ht, Res.bind_ok, hf, if_false, hr]
      · rw [cont_append]; exact List.perm_append_comm
      · have h0 : o.mt = 0 := by omega
        simp only [counts, List.map_append, List.map_cons, List.map_nil, h0]
        exact .out _ _

theorem removeAsserted_spec {fs : Nat} {q : QState Nat} {l : List (Obj Nat)} {o : Obj Nat} (h : Rep fs 0 q (l ++ [o])) :
    ∃ q', removeAsserted q o.id = .ok q' ∧ Rep fs 0 q' l := by
  obtain ⟨q', hr, hrep⟩ := h.remove_hit (id := o.id) (by simp)
  rw [delL_last h.nodup] at hrep
  exact ⟨q', by simp [removeAsserted, hr], hrep⟩

/-- What `evictFifo` does: `mv`, the tail of the small queue, moves to the main queue; `vs` (at most one object)
leaves the cache and is offered to the ghost queue. -/
theorem evictFifo_spec {fs ms gs : Nat} : ∀ (n : Nat) (s : State) (lf lm : List (Obj Nat)), Rep fs 0 s.fifo lf →
    Rep ms 0 s.main lm → (∀ i ∈ lf.map (·.id), i ∉ lm.map (·.id)) → GhostInv gs s.ghost → lf.length ≤ n →
    ∃ f' m' g' lf' vs mv, evictFifo n s = .ok { s with fifo := f', main := m', ghost := g' } ∧
      lf = lf' ++ vs ++ mv ∧ vs.length ≤ 1 ∧ (vs = [] → charge 0 (cont lf') = 0) ∧
      (∀ o ∈ mv, s.threshold ≤ o.mt) ∧ (∀ o ∈ vs, o.mt < s.threshold) ∧
      Rep fs 0 f' lf' ∧ Rep ms 0 m' (mv.map fresh ++ lm) ∧ GhostInv gs g' ∧
      (vs = [] → g' = s.ghost) ∧ (∀ o ∈ vs, ghostGet s.ghost o.toReq = .ok g') := by
  intro n
  induction n with
  | zero =>
    intro s lf lm hf hm _ hg hlen
    have : lf = [] := List.length_eq_zero_iff.1 (by omega)
    subst this
    have hocc : ¬ s.fifo.base.occ > 0 := by rw [hf.occ]; simp [charge]
    exact ⟨s.fifo, s.main, s.ghost, [], [], [], by simp [evictFifo, hocc], rfl, by simp, by simp [charge], by simp, by simp,
      hf, by simpa using hm, hg, by simp, by simp⟩
  | succ n ih =>
    intro s lf lm hf hm hdis hg hlen
    by_cases hpos : 0 < charge 0 (cont lf)
    · obtain ⟨l, o, rfl⟩ := exists_last_of_charge hpos
      have hocc : s.fifo.base.occ > 0 := by rw [hf.occ]; omega
      have ht := hf.tailObj rfl
      have hsz : o.size + 0 < u32 := hf.small o (by simp)
      obtain ⟨f1, hr, hrep⟩ := removeAsserted_spec hf
      have hnm : o.id ∉ lm.map (·.id) := hdis o.id (by simp)
      have hnl : o.id ∉ l.map (·.id) := by
        have := hf.nodup
        rw [List.map_append, List.nodup_append] at this
        intro hx
        exact this.2.2 o.id hx o.id (by simp) rfl
      by_cases hfr : o.mt ≥ s.threshold
      · obtain ⟨m2, hi, hrep2⟩ := hm.insert 0 o.toReq hnm (sizeOk_zero _)
        have hrep3 := hrep2.modify o.id (fun x => { x with miscFreq := o.miscFreq }) (fun _ => rfl) (fun _ => rfl)
        have hofr : (Obj.ofReq 0 o.toReq : Obj Nat).id = o.id := rfl
        rw [← hofr, modL_cons_self (by rw [hofr]; exact hnm)] at hrep3
        have hd : ({ (Obj.ofReq 0 o.toReq : Obj Nat) with miscFreq := o.miscFreq } : Obj Nat) = fresh o := by
          have hs : o.size % u32 = o.size := Nat.mod_eq_of_lt (by omega)
          simp only [Obj.ofReq, Obj.toReq, fresh, hs]
        rw [hd, hofr] at hrep3
        have hdis' : ∀ i ∈ l.map (·.id), i ∉ (fresh o :: lm).map (·.id) := by
          intro i hi
          simp only [List.map_cons, List.mem_cons, not_or]
          refine ⟨?_, hdis i (by simp only [List.map_append, List.mem_append]; exact Or.inl hi)⟩
          rintro rfl
          exact hnl hi
        obtain ⟨f', m', g', lf', vs, mv, k1, k2, k3, k4, k5, k6, k7, k8, k9, k10, k11⟩ :=
          ih { s with main := m2.modify o.id (fun x => { x with miscFreq := o.miscFreq }), fifo := f1 } l (fresh o :: lm)
            hrep hrep3 hdis' hg (by simp at hlen; omega)
        refine ⟨f', m', g', lf', vs, mv ++ [o], ?_, by rw [k2]; simp, k3, k4, ?_, k6, k7, by simpa using k8, k9, k10, k11⟩
        · rw [evictFifo]
          simp only [hocc, if_true, ht, Res.bind_ok, hfr, hi, hr]
          exact k1
        · intro x hx
          rcases List.mem_append.1 hx with hx | hx
          · exact k5 x hx
          · rw [List.mem_singleton.1 hx]; exact hfr
      · obtain ⟨g', hg1, hg2, _⟩ := ghostGet_spec hg o.toReq
        refine ⟨f1, s.main, g', l, [o], [], ?_, by simp, by simp, by simp, by simp, by simpa using hfr, hrep, by simpa using hm,
          hg2, by simp, by simpa using hg1⟩
        rw [evictFifo]
        simp only [hocc, if_true, ht, Res.bind_ok, hfr, if_false, hg1, hr]
    · have hocc : ¬ s.fifo.base.occ > 0 := by rw [hf.occ]; omega
      exact ⟨s.fifo, s.main, s.ghost, lf, [], [], by simp [evictFifo, hocc], by simp, by simp, by intro _; omega, by simp, by simp,
        hf, by simpa using hm, hg, by simp, by simp⟩

/-! ### The invariant -/

/-- what is cached: the small and the main queue -/
def cached (s : State) : Contents := cont s.fifo.objs ++ cont s.main.objs

structure Inv (cs fs gs thr : Nat) (d : Prop) (s : State) : Prop where
  csz : s.cacheSize = cs
  le : fs ≤ cs
  fifo : Rep fs 0 s.fifo s.fifo.objs
  main : Rep (cs - fs) 0 s.main s.main.objs
  dis : ∀ i ∈ s.fifo.objs.map (·.id), i ∉ s.main.objs.map (·.id)
  cap : charge 0 (cached s) ≤ cs
  ghost : GhostInv gs s.ghost
  thrz : s.threshold = thr
  sep : d → ∀ i ∈ ghostIds s.ghost, i ∉ (cached s).ids

theorem inv_mk {cs fs gs thr : Nat} {d : Prop} {s : State} {lf lm : List (Obj Nat)} (hcs : s.cacheSize = cs) (hle : fs ≤ cs)
    (hf : Rep fs 0 s.fifo lf) (hm : Rep (cs - fs) 0 s.main lm) (hdis : ∀ i ∈ lf.map (·.id), i ∉ lm.map (·.id))
    (hcap : charge 0 (cont lf ++ cont lm) ≤ cs) (hg : GhostInv gs s.ghost) (ht : s.threshold = thr)
    (hsep : d → ∀ i ∈ ghostIds s.ghost, i ∉ Contents.ids (cont lf ++ cont lm)) : Inv cs fs gs thr d s := by
  have e1 := hf.objs
  have e2 := hm.objs
  have ec : cached s = cont lf ++ cont lm := by rw [cached, e1, e2]
  exact ⟨hcs, hle, by rw [e1]; exact hf, by rw [e2]; exact hm, by rw [e1, e2]; exact hdis, by rw [ec]; exact hcap, hg, ht,
    by rw [ec]; exact hsep⟩

theorem inv_init {cs fs : Nat} (gs thr : Nat) (d : Prop) (h : fs ≤ cs) : Inv cs fs gs thr d (init cs fs gs thr) := by
  exact inv_mk rfl h (Rep.init fs 0 .none) (Rep.init (cs - fs) 0 .none) (by simp) (by simp [charge]) (ghostInv_init gs) rfl (by simp)

def measure (s : State) : Nat := 2 * s.fifo.objs.length + s.main.objs.length

section
variable {cs fs gs thr : Nat} {d : Prop} {s : State}

theorem Inv.occ (h : Inv cs fs gs thr d s) : algo.occ s = (charge 0 (cached s) : Nat) := by
  show s.fifo.base.occ + s.main.base.occ = _
  rw [h.fifo.occ, h.main.occ, cached, charge_append]; push_cast; rfl

theorem Inv.nodup (h : Inv cs fs gs thr d s) : (cached s).ids.Nodup := by
  have : (cached s).ids = s.fifo.objs.map (·.id) ++ s.main.objs.map (·.id) := by
    rw [cached, Contents.ids, List.map_append]; rw [← cont_ids, ← cont_ids]
  rw [this, List.nodup_append]
  exact ⟨h.fifo.nodup, h.main.nodup, fun a ha b hb e => h.dis a ha (e ▸ hb)⟩

theorem mem_cached (s : State) (i : ObjId) :
    i ∈ (cached s).ids ↔ i ∈ s.fifo.objs.map (·.id) ∨ i ∈ s.main.objs.map (·.id) := by
  rw [cached, Contents.ids, List.map_append, List.mem_append, ← cont_ids, ← cont_ids]

theorem freqSum_eq (h : Inv cs fs gs thr d s) : freqSum s.main.base = (s.main.objs.map (·.mt)).sum :=
  (h.main.perm.map _).sum_nat

/-- One call of `evict`. -/
theorem evict_spec (h : Inv cs fs gs thr d s) :
    ∃ s' vs, evict s = .ok s' ∧ Inv cs fs gs thr d s' ∧ vs.length ≤ 1 ∧ (cached s).Perm (vs ++ cached s') ∧
      (0 < charge 0 (cached s) → measure s' < measure s) ∧ s'.hitOnGhost = s.hitOnGhost ∧
      (∀ i ∈ ghostIds s'.ghost, i ∈ ghostIds s.ghost ∨ i ∈ (cached s).ids) ∧
      (∀ i ∈ s'.main.objs.map (·.id), i ∈ s.main.objs.map (·.id) ∨ ∃ o ∈ s.fifo.objs, o.id = i ∧ thr ≤ o.mt) ∧
      (∀ o ∈ s'.fifo.objs, o ∈ s.fifo.objs) := by
  have hfo := h.fifo.occ
  have hmo := h.main.occ
  by_cases hc : s.main.base.occ > (s.main.base.cacheSize : Int) ∨ s.fifo.base.occ = 0
  · by_cases hpos : 0 < charge 0 (cont s.main.objs)
    · obtain ⟨m', lm', v, k1, k2, k3, _⟩ := evictMain_spec (freqSum s.main.base + 1) s s.main.objs h.main
        (by rw [freqSum_eq h]; omega) hpos
      have hsub : ∀ i ∈ lm'.map (·.id), i ∈ s.main.objs.map (·.id) := by
        intro i hi
        rw [← cont_ids] at hi ⊢
        exact (k3.map Prod.fst).symm.subset (List.mem_cons_of_mem _ hi)
      have hperm : (cached s).Perm ([v] ++ (cont s.fifo.objs ++ cont lm')) := by
        unfold cached
        refine (k3.append_left _).trans ?_
        simpa using List.perm_middle
      have hinv : Inv cs fs gs thr d { s with main := m' } := by
        refine inv_mk h.csz h.le h.fifo k2 (fun i hi hi' => h.dis i hi (hsub i hi')) ?_ h.ghost h.thrz ?_
        · have := charge_perm (md := 0) hperm
          rw [charge_append] at this
          have := h.cap
          omega
        · intro hd i hi hi'
          refine h.sep hd i hi ((hperm.map Prod.fst).symm.subset ?_)
          rw [List.map_append]
          exact List.mem_append_right _ hi'
      have ec : cached { s with main := m' } = cont s.fifo.objs ++ cont lm' := by
        unfold cached; simp only; rw [k2.objs]
      refine ⟨{ s with main := m' }, [v], ?_, hinv, by simp, by rw [ec]; exact hperm, ?_, rfl,
        fun i hi => Or.inl hi, ?_, fun o ho => ho⟩
      · rw [evict, if_pos hc]; exact k1
      · intro _
        have := (k3.map Prod.fst).length_eq
        simp only [measure, k2.objs]
        simp only [List.length_map, List.length_cons, cont_length] at this
        omega
      · intro i hi
        simp only [k2.objs] at hi
        exact Or.inl (hsub i hi)
    · have hz : charge 0 (cont s.main.objs) = 0 := by omega
      have hocc : ¬ s.main.base.occ > 0 := by rw [hmo, hz]; simp
      have hf0 : s.fifo.base.occ = 0 := by
        rcases hc with hc | hc
        · omega
        · exact hc
      refine ⟨s, [], ?_, h, by simp, by simp, ?_, rfl, fun i hi => Or.inl hi, fun i hi => Or.inl hi, fun o ho => ho⟩
      · rw [evict, if_pos (Or.inr hf0), evictMain, if_neg hocc]
      · intro hp
        rw [cached, charge_append, hz] at hp
        rw [hf0] at hfo
        omega
  · have hpos : 0 < charge 0 (cont s.fifo.objs) := by
      rw [not_or] at hc
      have := hc.2
      rw [hfo] at this
      omega
    obtain ⟨f', m', g', lf', vs, mv, k1, k2, k3, k4, k5, k6, k7, k8, k9, k10, k11⟩ :=
      evictFifo_spec s.fifo.base.tbl.length s s.fifo.objs s.main.objs h.fifo h.main h.dis h.ghost
        (Nat.le_of_eq h.fifo.perm.length_eq.symm)
    have hperm : (cached s).Perm (cont vs ++ (cont lf' ++ cont (mv.map fresh ++ s.main.objs))) := by
      unfold cached
      rw [k2]
      simp only [cont_append, cont_fresh, List.append_assoc]
      have : (cont lf' ++ (cont vs ++ (cont mv ++ cont s.main.objs))).Perm
          (cont vs ++ (cont lf' ++ (cont mv ++ cont s.main.objs))) := by
        have e := (List.perm_append_comm (l₁ := cont lf') (l₂ := cont vs)).append_right (cont mv ++ cont s.main.objs)
        simpa only [List.append_assoc] using e
      exact this
    have hnd := h.nodup
    have hnd' := (hperm.map Prod.fst).nodup_iff.1 hnd
    rw [List.map_append, List.nodup_append, List.map_append, List.nodup_append] at hnd'
    have hinv : Inv cs fs gs thr d { s with fifo := f', main := m', ghost := g' } := by
      refine inv_mk h.csz h.le k7 k8 ?_ ?_ k9 h.thrz ?_
      · intro i hi hi'
        rw [← cont_ids] at hi hi'
        exact hnd'.2.1.2.2 i hi i hi' rfl
      · have := charge_perm (md := 0) hperm
        rw [charge_append] at this
        have := h.cap
        omega
      · intro hd i hi hi'
        have hin : i ∈ (cached s).ids := (hperm.map Prod.fst).symm.subset (by
          rw [List.map_append]; exact List.mem_append_right _ hi')
        match vs, k3, k10, k11, hnd' with
        | [], _, k10, _, _ =>
          simp only [k10 rfl] at hi
          exact h.sep hd i hi hin
        | [v], _, _, k11, hnd' =>
          obtain ⟨g'', e1, _, e2, _⟩ := ghostGet_spec h.ghost v.toReq
          rw [k11 v (by simp)] at e1
          cases e1
          rcases e2 i hi with rfl | hi
          · refine hnd'.2.2 v.id (by simp [cont]) v.id ?_ rfl
            rw [← List.map_append]; exact hi'
          · exact h.sep hd i hi hin
    have ec : cached { s with fifo := f', main := m', ghost := g' } = cont lf' ++ cont (mv.map fresh ++ s.main.objs) := by
      unfold cached; simp only; rw [k7.objs, k8.objs]
    refine ⟨{ s with fifo := f', main := m', ghost := g' }, cont vs, ?_, hinv, by rw [cont_length]; exact k3, by rw [ec]; exact hperm, ?_, rfl,
      ?_, ?_, ?_⟩
    · rw [evict, if_neg hc]; exact k1
    · intro _
      simp only [measure, k7.objs, k8.objs, List.length_append, List.length_map]
      have hlen : s.fifo.objs.length = lf'.length + vs.length + mv.length := by rw [k2]; simp only [List.length_append]
      have : vs ≠ [] ∨ mv ≠ [] := by
        by_contra hno
        rw [not_or, not_not, not_not] at hno
        have h0 := k4 hno.1
        rw [k2, hno.1, hno.2] at hpos
        simp only [List.append_nil] at hpos
        omega
      have : 0 < vs.length ∨ 0 < mv.length := by
        rcases this with h | h
        · exact Or.inl (List.length_pos_iff.2 h)
        · exact Or.inr (List.length_pos_iff.2 h)
      omega
    · intro i hi
      match vs, k3, k10, k11, k2 with
      | [], _, k10, _, _ => exact Or.inl (by rw [← k10 rfl]; exact hi)
      | [v], _, _, k11, k2 =>
        obtain ⟨g'', e1, _, e2, _⟩ := ghostGet_spec h.ghost v.toReq
        rw [k11 v (by simp)] at e1
        cases e1
        rcases e2 i hi with rfl | hi
        · refine Or.inr ((mem_cached s _).2 (Or.inl ?_))
          rw [k2]; simp [Obj.toReq]
        · exact Or.inl hi
    · intro i hi
      simp only [k8.objs, List.map_append, List.mem_append] at hi
      rcases hi with hi | hi
      · simp only [List.map_map, List.mem_map, Function.comp] at hi
        obtain ⟨o, ho, rfl⟩ := hi
        exact Or.inr ⟨o, by rw [k2]; simp [ho], rfl, by rw [← h.thrz]; exact k5 o ho⟩
      · exact Or.inl hi
    · intro o ho
      simp only [k7.objs] at ho
      rw [k2]; simp [ho]

/-- Which object `evict` takes. -/
theorem evict_victim (h : Inv cs fs gs thr d s) (hpos : 0 < charge 0 (cached s)) :
    ∃ s', evict s = .ok s' ∧
    ((charge 0 (cont s.main.objs) > cs - fs ∨ charge 0 (cont s.fifo.objs) = 0) →
      s'.fifo = s.fifo ∧ ∃ v, SecondChance 3 (counts s.main.objs) v (counts s'.main.objs)) ∧
    (¬ (charge 0 (cont s.main.objs) > cs - fs ∨ charge 0 (cont s.fifo.objs) = 0) →
      ∃ vs mv, s.fifo.objs = s'.fifo.objs ++ vs ++ mv ∧ vs.length ≤ 1 ∧ (vs = [] → charge 0 (cont s'.fifo.objs) = 0) ∧
        (∀ o ∈ mv, thr ≤ o.mt) ∧ (∀ o ∈ vs, o.mt < thr) ∧
        counts s'.main.objs = mv.map (fun o => (o.id, 0)) ++ counts s.main.objs ∧
        (∀ o ∈ vs, 0 < gs → o.size ≤ gs → o.id ∈ ghostIds s'.ghost)) := by
  have hfo := h.fifo.occ
  have hmo := h.main.occ
  have hiff : (s.main.base.occ > (s.main.base.cacheSize : Int) ∨ s.fifo.base.occ = 0) ↔
      (charge 0 (cont s.main.objs) > cs - fs ∨ charge 0 (cont s.fifo.objs) = 0) := by
    rw [hfo, hmo, h.main.csz]
    have := h.le
    constructor <;> intro h <;> omega
  by_cases hc : s.main.base.occ > (s.main.base.cacheSize : Int) ∨ s.fifo.base.occ = 0
  · have hp : 0 < charge 0 (cont s.main.objs) := by
      rw [cached, charge_append] at hpos
      rcases hc with hc | hc <;> omega
    obtain ⟨m', lm', v, k1, k2, k3, k4⟩ := evictMain_spec (freqSum s.main.base + 1) s s.main.objs h.main
      (by rw [freqSum_eq h]; omega) hp
    refine ⟨{ s with main := m' }, by rw [evict, if_pos hc]; exact k1, fun _ => ⟨rfl, v.1, ?_⟩, fun hn => absurd (hiff.1 hc) hn⟩
    rw [show ({ s with main := m' } : State).main.objs = lm' from k2.objs]
    exact k4
  · obtain ⟨f', m', g', lf', vs, mv, k1, k2, k3, k4, k5, k6, k7, k8, k9, k10, k11⟩ :=
      evictFifo_spec s.fifo.base.tbl.length s s.fifo.objs s.main.objs h.fifo h.main h.dis h.ghost
        (Nat.le_of_eq h.fifo.perm.length_eq.symm)
    rw [h.thrz] at k5 k6
    refine ⟨{ s with fifo := f', main := m', ghost := g' }, by rw [evict, if_neg hc]; exact k1, fun hn => absurd (hiff.2 hn) hc, fun _ => ⟨vs, mv, ?_, k3, ?_, k5, k6, ?_, ?_⟩⟩
    · rw [show ({ s with fifo := f', main := m', ghost := g' } : State).fifo.objs = lf' from k7.objs]; exact k2
    · rw [show ({ s with fifo := f', main := m', ghost := g' } : State).fifo.objs = lf' from k7.objs]; exact k4
    · rw [show ({ s with fifo := f', main := m', ghost := g' } : State).main.objs = _ from k8.objs]
      simp [counts, fresh]
    · intro o ho hg hsz
      exact ghostGet_in h.ghost hg o.toReq hsz (k11 o ho)

theorem find_false (h : Inv cs fs gs thr d s) (r : Req) : find s r false = .ok (decide (r.id ∈ (cached s).ids), s) := by
  simp only [find, Bool.false_eq_true, if_false, (h.fifo.findFIFO_false r).1, (h.main.findFIFO_false r).1]
  congr 2
  rw [← Bool.decide_or]
  exact decide_eq_decide.2 (mem_cached s r.id).symm

/-- the small-queue object after a hit -/
def bumped (r : Req) (o : Obj Nat) : Obj Nat := hit (touch r o)

theorem modL_modL {μ : Type} (id : ObjId) (f g : Obj μ → Obj μ) (hf : ∀ o, (f o).id = o.id) (l : List (Obj μ)) :
    modL id g (modL id f l) = modL id (fun o => g (f o)) l := by
  simp only [modL, List.map_map]
  apply List.map_congr_left
  intro o _
  simp only [Function.comp]
  by_cases h : o.id = id <;> simp [h, hf]

theorem findFifo_hit (h : Inv cs fs gs thr d s) {r : Req} (hm : r.id ∈ s.fifo.objs.map (·.id)) :
    ∃ s', find s r true = .ok (true, s') ∧ Inv cs fs gs thr d s' ∧ cached s' = cached s ∧
      s'.fifo.objs = modL r.id (bumped r) s.fifo.objs ∧ s'.main = s.main ∧ s'.ghost = s.ghost := by
  obtain ⟨o, _, _, hf⟩ := h.fifo.findFIFO_hit hm
  have hrep := (h.fifo.modify r.id (touch r) (fun _ => rfl) (fun _ => rfl)).modify r.id hit (fun _ => rfl) (fun _ => rfl)
  rw [modL_modL r.id (touch r) hit (fun _ => rfl)] at hrep
  have hrep' : Rep fs 0 ((s.fifo.modify r.id (touch r)).modify r.id hit) (modL r.id (bumped r) s.fifo.objs) := hrep
  have hids : (modL r.id (bumped r) s.fifo.objs).map (·.id) = s.fifo.objs.map (·.id) := modL_ids _ (bumped r) (fun _ => rfl) _
  have hcont : cont (modL r.id (bumped r) s.fifo.objs) = cont s.fifo.objs := modL_cont _ (bumped r) (fun _ => rfl) (fun _ => rfl) _
  refine ⟨{ s with hitOnGhost := false, fifo := (s.fifo.modify r.id (touch r)).modify r.id hit },
    by simp [find, findUpdate, hf], ?_, ?_, hrep'.objs, rfl, rfl⟩
  · refine inv_mk h.csz h.le hrep' h.main (by rw [hids]; exact h.dis) ?_ h.ghost h.thrz ?_
    · rw [hcont]; exact h.cap
    · rw [hcont]; exact h.sep
  · unfold cached; simp only; rw [hrep'.objs, hcont]

/-- A find with update that does not hit the small queue. -/
theorem findMain (h : Inv cs fs gs thr d s) {r : Req} (hm : r.id ∉ s.fifo.objs.map (·.id)) :
    ∃ s', find s r true = .ok (decide (r.id ∈ s.main.objs.map (·.id)), s') ∧ Inv cs fs gs thr d s' ∧ cached s' = cached s ∧
      s'.fifo = s.fifo ∧ s'.main.objs.map (·.id) = s.main.objs.map (·.id) ∧
      (ghostIds s'.ghost).Perm ((ghostIds s.ghost).filter (fun x => x ≠ r.id)) ∧
      s'.hitOnGhost = decide (r.id ∈ ghostIds s.ghost) := by
  obtain ⟨g', hg1, hg2, hg3, _⟩ := ghostRemove_spec h.ghost r.id
  have hfm := h.fifo.findFIFO_miss (u := true) hm
  have hsep : d → ∀ i ∈ ghostIds g', i ∉ (cached s).ids := by
    intro hd i hi
    exact h.sep hd i (List.mem_of_mem_filter (hg3.subset hi))
  by_cases hmm : r.id ∈ s.main.objs.map (·.id)
  · obtain ⟨o, _, _, hf⟩ := h.main.findFIFO_hit hmm
    have hrep := (h.main.modify r.id (touch r) (fun _ => rfl) (fun _ => rfl)).modify r.id hit (fun _ => rfl) (fun _ => rfl)
    rw [modL_modL r.id (touch r) hit (fun _ => rfl)] at hrep
    have hrep' : Rep (cs - fs) 0 ((s.main.modify r.id (touch r)).modify r.id hit) (modL r.id (bumped r) s.main.objs) := hrep
    have hids : (modL r.id (bumped r) s.main.objs).map (·.id) = s.main.objs.map (·.id) := modL_ids _ (bumped r) (fun _ => rfl) _
    have hcont : cont (modL r.id (bumped r) s.main.objs) = cont s.main.objs := modL_cont _ (bumped r) (fun _ => rfl) (fun _ => rfl) _
    refine ⟨{ s with hitOnGhost := decide (r.id ∈ ghostIds s.ghost), ghost := g', main := (s.main.modify r.id (touch r)).modify r.id hit },
      ?_, ?_, ?_, rfl, by simp only [hrep'.objs]; exact hids, hg3, rfl⟩
    · simp [find, findUpdate, hfm, hg1, hf, hmm]
    · refine inv_mk h.csz h.le h.fifo hrep' (by rw [hids]; exact h.dis) ?_ hg2 h.thrz ?_
      · rw [hcont]; exact h.cap
      · rw [hcont]; exact hsep
    · unfold cached; simp only; rw [hrep'.objs, hcont]
  · have hf := h.main.findFIFO_miss (u := true) hmm
    refine ⟨{ s with hitOnGhost := decide (r.id ∈ ghostIds s.ghost), ghost := g' }, ?_, ?_, rfl, rfl, rfl, hg3, rfl⟩
    · simp [find, findUpdate, hfm, hg1, hf, hmm]
    · exact inv_mk h.csz h.le h.fifo h.main h.dis h.cap hg2 h.thrz hsep

/-- What a hit does to the counts. -/
theorem find_counts (h : Inv cs fs gs thr d s) {r : Req} {s' : State} (hf : find s r true = .ok (true, s')) :
    counts s'.fifo.objs = countHit r.id (counts s.fifo.objs) ∧ counts s'.main.objs = countHit r.id (counts s.main.objs) := by
  have hcount : ∀ l : List (Obj Nat), counts (modL r.id (bumped r) l) = countHit r.id (counts l) := by
    intro l
    simp only [counts, modL, countHit, List.map_map]
    apply List.map_congr_left
    intro o _
    by_cases he : o.id = r.id
    · simp [he, bumped, hit, touch]
    · simp [he]
  have hno : ∀ l : List (Obj Nat), r.id ∉ l.map (·.id) → countHit r.id (counts l) = counts l := by
    intro l hl
    simp only [counts, countHit, List.map_map]
    apply List.map_congr_left
    intro o ho
    have : o.id ≠ r.id := fun e => hl (List.mem_map.2 ⟨o, ho, e⟩)
    simp [this]
  by_cases hm : r.id ∈ s.fifo.objs.map (·.id)
  · obtain ⟨s'', k1, _, _, k4, k5, _⟩ := findFifo_hit h hm
    rw [k1] at hf
    cases hf
    rw [k4, k5, hcount, hno _ (h.dis _ hm)]
    exact ⟨rfl, rfl⟩
  · have hfm := h.fifo.findFIFO_miss (u := true) hm
    obtain ⟨g', hg1, _⟩ := ghostRemove_spec h.ghost r.id
    by_cases hmm : r.id ∈ s.main.objs.map (·.id)
    · obtain ⟨o, _, _, hf2⟩ := h.main.findFIFO_hit hmm
      have hrep := (h.main.modify r.id (touch r) (fun _ => rfl) (fun _ => rfl)).modify r.id hit (fun _ => rfl) (fun _ => rfl)
      rw [modL_modL r.id (touch r) hit (fun _ => rfl)] at hrep
      have hrep' : Rep (cs - fs) 0 ((s.main.modify r.id (touch r)).modify r.id hit) (modL r.id (bumped r) s.main.objs) := hrep
      simp only [find, findUpdate, if_true, hfm, hg1, Res.bind_ok, hf2] at hf
      cases hf
      exact ⟨(hno _ hm).symm, by simp only; rw [hrep'.objs, hcount]⟩
    · have hmi := h.main.findFIFO_miss (u := true) hmm
      simp [find, findUpdate, hfm, hg1, hmi] at hf

theorem insert_spec (h : Inv cs fs gs thr d s) (r : Req) (hn : r.id ∉ (cached s).ids)
    (hroom : algo.mustEvict s r = false) (hg : d → r.id ∉ ghostIds s.ghost) :
    ∃ s', insert s r = .ok s' ∧ Inv cs fs gs thr d s' ∧ s'.ghost = s.ghost ∧
      ((s.hitOnGhost = true ∧ s'.fifo = s.fifo ∧ s'.main.objs = Obj.ofReq 0 r :: s.main.objs) ∨
       (s.hitOnGhost = false ∧ r.size ≥ fs ∧ s' = s) ∨
       (s.hitOnGhost = false ∧ r.size < fs ∧ s'.main = s.main ∧ s'.fifo.objs = Obj.ofReq 0 r :: s.fifo.objs)) := by
  rw [mem_cached, not_or] at hn
  have hocc := h.occ
  have hroom' : charge 0 (cached s) + r.size ≤ cs := by
    simp only [Algo.mustEvict, decide_eq_false_iff_not] at hroom
    rw [hocc] at hroom
    have e1 : (algo.cacheSize s : Int) = cs := by show (s.cacheSize : Int) = cs; rw [h.csz]
    have e2 : (algo.md s : Int) = 0 := rfl
    rw [e1, e2] at hroom
    omega
  have hmod : r.size % u32 ≤ r.size := Nat.mod_le _ _
  have hch : charge 0 (cached s) = charge 0 (cont s.fifo.objs) + charge 0 (cont s.main.objs) := by
    rw [cached, charge_append]
  have hids : ∀ i, i ∈ (cached s).ids ↔ i ∈ s.fifo.objs.map (·.id) ∨ i ∈ s.main.objs.map (·.id) := mem_cached s
  by_cases hh : s.hitOnGhost = true
  · obtain ⟨m', k1, k2⟩ := h.main.insert 0 r hn.2 (sizeOk_zero r)
    refine ⟨{ s with hitOnGhost := false, main := m' }, by simp [insert, hh, k1], ?_, rfl, Or.inl ⟨hh, rfl, k2.objs⟩⟩
    refine inv_mk h.csz h.le h.fifo k2 ?_ ?_ h.ghost h.thrz ?_
    · intro i hi
      simp only [List.map_cons, List.mem_cons, not_or]
      exact ⟨fun e => hn.1 (by rw [← show i = r.id from e]; exact hi), h.dis i hi⟩
    · rw [charge_append, cont_cons, charge]
      simp only [Obj.ofReq]
      omega
    · intro hd i hi hi'
      rw [Contents.ids, List.map_append, List.mem_append, cont_cons, List.map_cons, List.mem_cons] at hi'
      rcases hi' with hi' | hi' | hi'
      · exact h.sep hd i hi ((hids i).2 (Or.inl (by rw [← cont_ids]; exact hi')))
      · exact hg hd (by rw [← show i = r.id from hi']; exact hi)
      · exact h.sep hd i hi ((hids i).2 (Or.inr (by rw [← cont_ids]; exact hi')))
  · have hh' : s.hitOnGhost = false := by simpa using hh
    by_cases hsz : r.size ≥ fs
    · refine ⟨s, ?_, h, rfl, Or.inr (Or.inl ⟨hh', hsz, rfl⟩)⟩
      simp [insert, hh', h.fifo.csz, hsz]
    · obtain ⟨f', k1, k2⟩ := h.fifo.insert 0 r hn.1 (sizeOk_zero r)
      refine ⟨{ s with fifo := f' }, ?_, ?_, rfl, Or.inr (Or.inr ⟨hh', by omega, rfl, k2.objs⟩)⟩
      · simp [insert, hh', h.fifo.csz, hsz, k1]
      · refine inv_mk h.csz h.le k2 h.main ?_ ?_ h.ghost h.thrz ?_
        · intro i hi
          simp only [List.map_cons, List.mem_cons] at hi
          rcases hi with hi | hi
          · rw [show i = r.id from hi]; exact hn.2
          · exact h.dis i hi
        · rw [charge_append, cont_cons, charge]
          simp only [Obj.ofReq]
          omega
        · intro hd i hi hi'
          rw [Contents.ids, List.map_append, List.mem_append, cont_cons, List.map_cons, List.mem_cons] at hi'
          rcases hi' with (hi' | hi') | hi'
          · exact hg hd (by rw [← show i = r.id from hi']; exact hi)
          · exact h.sep hd i hi ((hids i).2 (Or.inl (by rw [← cont_ids]; exact hi')))
          · exact h.sep hd i hi ((hids i).2 (Or.inr (by rw [← cont_ids]; exact hi')))

theorem delL_sublist {μ : Type} (id : ObjId) (l : List (Obj μ)) : List.Sublist (cont (delL id l)) (cont l) := by
  rw [delL_cont]; exact List.filter_sublist

/-- `remove` in general: it drops at most something. -/
theorem remove_any (h : Inv cs fs gs thr d s) (id : ObjId) :
    ∃ b s', remove s id = .ok (b, s') ∧ Inv cs fs gs thr d s' ∧ List.Sublist (cached s') (cached s) ∧
      (∀ i ∈ s'.main.objs.map (·.id), i ∈ s.main.objs.map (·.id)) ∧ (∀ o ∈ s'.fifo.objs, o ∈ s.fifo.objs) ∧
      (∀ i ∈ ghostIds s'.ghost, i ∈ ghostIds s.ghost) := by
  by_cases hf : id ∈ s.fifo.objs.map (·.id)
  · obtain ⟨f', k1, k2⟩ := h.fifo.remove_hit hf
    have hs : List.Sublist (cont (delL id s.fifo.objs) ++ cont s.main.objs) (cached s) :=
      List.Sublist.append (delL_sublist _ _) (List.Sublist.refl _)
    refine ⟨true, { s with fifo := f' }, by simp [remove, k1], ?_, ?_, fun i hi => hi, ?_, fun i hi => hi⟩
    · refine inv_mk h.csz h.le k2 h.main ?_ (Nat.le_trans (charge_sublist hs) h.cap) h.ghost h.thrz ?_
      · intro i hi
        rw [delL_ids] at hi
        exact h.dis i (List.mem_of_mem_filter hi)
      · intro hd i hi hi'
        exact h.sep hd i hi ((List.Sublist.map _ hs).subset hi')
    · rw [show cached { s with fifo := f' } = cont f'.objs ++ cont s.main.objs from rfl, k2.objs]; exact hs
    · intro o ho
      simp only [k2.objs] at ho
      exact List.mem_of_mem_filter ho
  · have k1 := h.fifo.remove_miss hf
    obtain ⟨g', g1, g2, g3, _⟩ := ghostRemove_spec h.ghost id
    have hgsub : ∀ i ∈ ghostIds g', i ∈ ghostIds s.ghost := fun i hi => List.mem_of_mem_filter (g3.subset hi)
    by_cases hgm : id ∈ ghostIds s.ghost
    · refine ⟨true, { s with ghost := g' }, by simp [remove, k1, g1, hgm], ?_, List.Sublist.refl _, fun i hi => hi, fun o ho => ho, hgsub⟩
      exact inv_mk h.csz h.le h.fifo h.main h.dis h.cap g2 h.thrz (fun hd i hi => h.sep hd i (hgsub i hi))
    · by_cases hm : id ∈ s.main.objs.map (·.id)
      · obtain ⟨m', m1, m2⟩ := h.main.remove_hit hm
        have hs : List.Sublist (cont s.fifo.objs ++ cont (delL id s.main.objs)) (cached s) :=
          List.Sublist.append (List.Sublist.refl _) (delL_sublist _ _)
        refine ⟨true, { s with ghost := g', main := m' }, by simp [remove, k1, g1, hgm, m1], ?_, ?_, ?_, fun o ho => ho, hgsub⟩
        · refine inv_mk h.csz h.le h.fifo m2 ?_ (Nat.le_trans (charge_sublist hs) h.cap) g2 h.thrz ?_
          · intro i hi hi'
            rw [delL_ids] at hi'
            exact h.dis i hi (List.mem_of_mem_filter hi')
          · intro hd i hi hi'
            exact h.sep hd i (hgsub i hi) ((List.Sublist.map _ hs).subset hi')
        · rw [show cached { s with ghost := g', main := m' } = cont s.fifo.objs ++ cont m'.objs from rfl, m2.objs]; exact hs
        · intro i hi
          simp only [m2.objs, delL_ids] at hi
          exact List.mem_of_mem_filter hi
      · have m1 := h.main.remove_miss hm
        refine ⟨false, { s with ghost := g' }, by simp [remove, k1, g1, hgm, m1], ?_, List.Sublist.refl _, fun i hi => hi, fun o ho => ho, hgsub⟩
        exact inv_mk h.csz h.le h.fifo h.main h.dis h.cap g2 h.thrz (fun hd i hi => h.sep hd i (hgsub i hi))

/-- `remove` when ghost entries are not cached. -/
theorem remove_spec (h : Inv cs fs gs thr d s) (hd : d) (id : ObjId) :
    ∃ s', remove s id = .ok (decide (id ∈ (cached s).ids ∨ id ∈ ghostIds s.ghost), s') ∧ Inv cs fs gs thr d s' ∧
      cached s' = (cached s).filter (fun x => x.1 ≠ id) ∧
      (∀ i ∈ s'.main.objs.map (·.id), i ∈ s.main.objs.map (·.id)) ∧ (∀ o ∈ s'.fifo.objs, o ∈ s.fifo.objs) ∧
      (∀ i ∈ ghostIds s'.ghost, i ∈ ghostIds s.ghost) := by
  have hids := mem_cached s
  by_cases hf : id ∈ s.fifo.objs.map (·.id)
  · obtain ⟨f', k1, k2⟩ := h.fifo.remove_hit hf
    have hnm := h.dis id hf
    have ec : cont (delL id s.fifo.objs) ++ cont s.main.objs = (cached s).filter (fun x => x.1 ≠ id) := by
      rw [cached, List.filter_append, delL_cont]
      congr 1
      symm
      exact filter_ids_eq (by rw [cont_ids]; exact hnm)
    have hinc : id ∈ (cached s).ids := (hids id).2 (Or.inl hf)
    refine ⟨{ s with fifo := f' }, ?_, ?_, ?_, fun i hi => hi, ?_, fun i hi => hi⟩
    · simp [remove, k1, hinc]
    · refine inv_mk h.csz h.le k2 h.main ?_ ?_ h.ghost h.thrz ?_
      · intro i hi
        rw [delL_ids] at hi
        exact h.dis i (List.mem_of_mem_filter hi)
      · rw [ec]
        exact Nat.le_trans (charge_sublist List.filter_sublist) h.cap
      · intro _ i hi hi'
        rw [ec] at hi'
        exact h.sep hd i hi ((List.Sublist.map _ List.filter_sublist).subset hi')
    · rw [← ec]; unfold cached; simp only; rw [k2.objs]
    · intro o ho
      simp only [k2.objs] at ho
      exact List.mem_of_mem_filter ho
  · have k1 := h.fifo.remove_miss hf
    obtain ⟨g', g1, g2, g3, _⟩ := ghostRemove_spec h.ghost id
    have hgsub : ∀ i ∈ ghostIds g', i ∈ ghostIds s.ghost := fun i hi => List.mem_of_mem_filter (g3.subset hi)
    by_cases hgm : id ∈ ghostIds s.ghost
    · have hnc := h.sep hd id hgm
      have hnm : id ∉ s.main.objs.map (·.id) := fun hx => hnc ((hids id).2 (Or.inr hx))
      refine ⟨{ s with ghost := g' }, ?_, ?_, ?_, fun i hi => hi, fun o ho => ho, hgsub⟩
      · simp [remove, k1, g1, hgm]
      · exact inv_mk h.csz h.le h.fifo h.main h.dis h.cap g2 h.thrz (fun hd i hi => h.sep hd i (hgsub i hi))
      · rw [filter_ids_eq hnc]; rfl
    · by_cases hm : id ∈ s.main.objs.map (·.id)
      · obtain ⟨m', m1, m2⟩ := h.main.remove_hit hm
        have ec : cont s.fifo.objs ++ cont (delL id s.main.objs) = (cached s).filter (fun x => x.1 ≠ id) := by
          rw [cached, List.filter_append, delL_cont]
          congr 1
          symm
          exact filter_ids_eq (by rw [cont_ids]; exact hf)
        have hinc : id ∈ (cached s).ids := (hids id).2 (Or.inr hm)
        refine ⟨{ s with ghost := g', main := m' }, ?_, ?_, ?_, ?_, fun o ho => ho, hgsub⟩
        · simp [remove, k1, g1, hgm, m1, hinc]
        · refine inv_mk h.csz h.le h.fifo m2 ?_ ?_ g2 h.thrz ?_
          · intro i hi hi'
            rw [delL_ids] at hi'
            exact h.dis i hi (List.mem_of_mem_filter hi')
          · rw [ec]
            exact Nat.le_trans (charge_sublist List.filter_sublist) h.cap
          · intro _ i hi hi'
            rw [ec] at hi'
            exact h.sep hd i (hgsub i hi) ((List.Sublist.map _ List.filter_sublist).subset hi')
        · rw [← ec]; unfold cached; simp only; rw [m2.objs]
        · intro i hi
          simp only [m2.objs, delL_ids] at hi
          exact List.mem_of_mem_filter hi
      · have m1 := h.main.remove_miss hm
        have hnc : id ∉ (cached s).ids := fun hx => ((hids id).1 hx).elim hf hm
        refine ⟨{ s with ghost := g' }, ?_, ?_, ?_, fun i hi => hi, fun o ho => ho, hgsub⟩
        · simp [remove, k1, g1, hgm, m1, hnc]
        · exact inv_mk h.csz h.le h.fifo h.main h.dis h.cap g2 h.thrz (fun hd i hi => h.sep hd i (hgsub i hi))
        · rw [filter_ids_eq hnc]; rfl

end

/-- What `get` needs when it starts evicting. -/
def Ready (fs : Nat) (d : Prop) (s : State) (r : Req) : Prop := r.size ≤ fs ∧ (d → r.id ∉ ghostIds s.ghost)

theorem mustEvict_iff {cs fs gs thr : Nat} {d : Prop} {s : State} (h : Inv cs fs gs thr d s) (r : Req) :
    algo.mustEvict s r = true ↔ charge 0 (cached s) + r.size > cs := by
  simp only [Algo.mustEvict, decide_eq_true_eq, h.occ]
  have e1 : (algo.cacheSize s : Int) = cs := by show (s.cacheSize : Int) = cs; rw [h.csz]
  have e2 : (algo.md s : Int) = 0 := rfl
  rw [e1, e2]
  omega

/-- S3FIFO meets the contract for every call sequence. -/
theorem medium {cs fs : Nat} (gs thr : Nat) (p : Perms) :
    Medium algo cached (Inv cs fs gs thr (p.ins = false)) (Ready fs (p.ins = false)) measure cs 0 p (fun _ => True) where
  csz := fun h => h.csz
  mdz := fun _ => rfl
  nodup := fun h => h.nodup
  occ := fun h => h.occ
  nObj := fun {s} h => by
    show s.fifo.base.nObj + s.main.base.nObj = _
    rw [h.fifo.nObj, h.main.nObj, cached, List.length_append, cont_length, cont_length]; push_cast; rfl
  cap := fun h => by rw [h.occ]; have := h.cap; omega
  bump := fun h => ⟨⟨h.csz, h.le, h.fifo, h.main, h.dis, h.cap, h.ghost, h.thrz, h.sep⟩, rfl⟩
  findF := fun _ _ r h => find_false h r
  findHit := fun {s} r h hin _ => by
    by_cases hf : r.id ∈ s.fifo.objs.map (·.id)
    · obtain ⟨s', h1, h2, h3, _⟩ := findFifo_hit h hf
      exact ⟨s', h1, h2, by rw [h3]⟩
    · have hm : r.id ∈ s.main.objs.map (·.id) := ((mem_cached s r.id).1 hin).resolve_left hf
      obtain ⟨s', h1, h2, h3, _⟩ := findMain h hf
      exact ⟨s', by rw [show algo.find s r true = find s r true from rfl, h1]; simp [hm], h2, by rw [h3]⟩
  findMiss := fun {s} r h hin _ => by
    rw [mem_cached, not_or] at hin
    obtain ⟨s', h1, h2, h3, _, _, h6, _⟩ := findMain h hin.1
    refine ⟨s', by rw [show algo.find s r true = find s r true from rfl, h1]; simp [hin.2], h2, by rw [h3], h2, by rw [← h3]; exact List.Perm.refl _, ?_⟩
    intro hc _
    have hc' : decide (r.size ≤ s'.fifo.base.cacheSize) = true := hc
    rw [h2.fifo.csz] at hc'
    refine ⟨by simpa using hc', fun _ hx => ?_⟩
    have := h6.subset hx
    simp at this
  fuel := fun {s} h => by
    show measure s ≤ 2 * s.fifo.base.tbl.length + s.main.base.tbl.length
    rw [measure, h.fifo.perm.length_eq, h.main.perm.length_eq]
    exact Nat.le_refl _
  evictLoop := fun {s} r h _ hr hn hme => by
    obtain ⟨s', vs, k1, k2, k3, k4, k5, k6, k7, _⟩ := evict_spec h
    refine ⟨s', k1, k2, ⟨hr.1, fun hd hx => ?_⟩, ?_, ?_⟩
    · rcases k7 _ hx with hx | hx
      · exact hr.2 hd hx
      · exact hn hx
    · exact (List.Sublist.subperm (List.sublist_append_right vs _)).trans k4.symm.subperm
    · apply k5
      rw [mustEvict_iff h] at hme
      have := hr.1
      have := h.le
      omega
  insert := fun {s} r h _ hr hn hme => by
    obtain ⟨s', k1, k2, k3, k4⟩ := insert_spec h r hn hme hr.2
    refine ⟨s', k1, k2, ?_⟩
    rcases k4 with ⟨_, e1, e2⟩ | ⟨_, _, rfl⟩ | ⟨_, _, e1, e2⟩
    · unfold cached; rw [e1, e2]
      exact List.perm_middle.subperm
    · exact List.Sublist.subperm (List.sublist_cons_self _ _)
    · unfold cached; rw [e1, e2]
      exact List.Subperm.refl _
  userInsert := fun hpi {s} r h _ hn hme => by
    obtain ⟨s', k1, k2, k3, k4⟩ := insert_spec h r hn hme (fun hd => by rw [hpi] at hd; simp at hd)
    refine ⟨s', k1, k2, ?_⟩
    rcases k4 with ⟨_, e1, e2⟩ | ⟨_, _, rfl⟩ | ⟨_, _, e1, e2⟩
    · unfold cached; rw [e1, e2]
      exact List.perm_middle.subperm
    · exact List.Sublist.subperm (List.sublist_cons_self _ _)
    · unfold cached; rw [e1, e2]
      exact List.Subperm.refl _
  remove := fun _ {s} id h => by
    obtain ⟨b, s', k1, k2, k3, _⟩ := remove_any h id
    exact ⟨b, s', k1, k2, k3.subperm⟩
  evict := fun _ {s} r h _ => by
    obtain ⟨s', vs, k1, k2, k3, k4, _⟩ := evict_spec h
    exact ⟨s', k1, k2, (List.Sublist.subperm (List.sublist_append_right vs _)).trans k4.symm.subperm⟩
  hitPerm := fun {s s'} r h hf => by
    by_cases hff : r.id ∈ s.fifo.objs.map (·.id)
    · obtain ⟨s'', h1, h2, h3, _⟩ := findFifo_hit h hff
      rw [show algo.find s r true = find s r true from rfl, h1] at hf
      cases hf
      rw [h3]
    · obtain ⟨s'', h1, h2, h3, _⟩ := findMain h hff
      rw [show algo.find s r true = find s r true from rfl, h1] at hf
      injection hf with hf
      injection hf with _ hf
      rw [← hf, h3]
  evictAtMostOne := fun {s s'} r h _ _ _ _ he => by
    obtain ⟨s'', vs, k1, k2, k3, k4, _⟩ := evict_spec h
    rw [show algo.evict s r = evict s from rfl, k1] at he
    cases he
    exact ⟨vs, k3, k4⟩

theorem insertOr {cs fs : Nat} (gs thr : Nat) (d : Prop) : InsertOr algo cached (Inv cs fs gs thr d) (Ready fs d) (fun _ => True) := by
  intro s s' r h _ hr hn hme hi
  obtain ⟨s'', k1, k2, k3, k4⟩ := insert_spec h r hn hme hr.2
  rw [show algo.insert s r = insert s r from rfl, k1] at hi
  cases hi
  rcases k4 with ⟨_, e1, e2⟩ | ⟨_, _, rfl⟩ | ⟨_, _, e1, e2⟩
  · left; unfold cached; rw [e1, e2]
    exact List.perm_middle
  · right; exact List.Perm.refl _
  · left; unfold cached; rw [e1, e2]
    exact List.Perm.refl _

/-! ### Whole `get` calls -/

/-- How evictions relate two states. -/
structure Evicted (thr : Nat) (s s' : State) : Prop where
  fifo : ∀ o ∈ s'.fifo.objs, o ∈ s.fifo.objs
  main : ∀ i ∈ s'.main.objs.map (·.id), i ∈ s.main.objs.map (·.id) ∨ ∃ o ∈ s.fifo.objs, o.id = i ∧ thr ≤ o.mt
  flag : s'.hitOnGhost = s.hitOnGhost

theorem evictLoop_rel {cs fs gs thr : Nat} {d : Prop} (r : Req) : ∀ (n : Nat) (s s' : State), Inv cs fs gs thr d s →
    algo.evictLoop r n s = .ok s' → Evicted thr s s' := by
  intro n
  induction n with
  | zero =>
    intro s s' _ he
    simp only [Algo.evictLoop] at he
    split at he
    · simp at he
    · cases he; exact ⟨fun o ho => ho, fun i hi => Or.inl hi, rfl⟩
  | succ n ih =>
    intro s s' h he
    simp only [Algo.evictLoop] at he
    split at he
    · obtain ⟨s1, vs, k1, k2, k3, k4, k5, k6, k7, k8, k9⟩ := evict_spec h
      rw [show algo.evict s r = evict s from rfl, k1, Res.bind_ok] at he
      have e := ih s1 s' k2 he
      refine ⟨fun o ho => k9 o (e.fifo o ho), fun i hi => ?_, by rw [e.flag, k6]⟩
      rcases e.main i hi with hi | ⟨o, ho, hio, hth⟩
      · exact k8 i hi
      · exact Or.inr ⟨o, k9 o ho, hio, hth⟩
    · cases he; exact ⟨fun o ho => ho, fun i hi => Or.inl hi, rfl⟩

theorem bump_inv {cs fs gs thr : Nat} {d : Prop} {s : State} (h : Inv cs fs gs thr d s) : Inv cs fs gs thr d (algo.bump s) :=
  ⟨h.csz, h.le, h.fifo, h.main, h.dis, h.cap, h.ghost, h.thrz, h.sep⟩

/-- What a find with update does to the queues. -/
theorem find_queues {cs fs gs thr : Nat} {d : Prop} {s s' : State} {r : Req} {b : Bool} (h : Inv cs fs gs thr d s)
    (hf : algo.find s r true = .ok (b, s')) :
    b = decide (r.id ∈ (cached s).ids) ∧ Inv cs fs gs thr d s' ∧
    (∀ o ∈ s'.fifo.objs, (o.id ≠ r.id ∧ o ∈ s.fifo.objs) ∨
      (o.id = r.id ∧ b = true ∧ ∃ o' ∈ s.fifo.objs, o'.id = r.id ∧ o.mt = o'.mt + 1)) ∧
    s'.main.objs.map (·.id) = s.main.objs.map (·.id) ∧
    (b = false → s'.hitOnGhost = decide (r.id ∈ ghostIds s.ghost) ∧ s'.fifo = s.fifo ∧ s'.main = s.main ∧
      (ghostIds s'.ghost).Perm ((ghostIds s.ghost).filter (fun x => x ≠ r.id))) := by
  by_cases hm : r.id ∈ s.fifo.objs.map (·.id)
  · obtain ⟨s'', h1, h2, h3, h4, h5, h6⟩ := findFifo_hit h hm
    rw [show algo.find s r true = find s r true from rfl, h1] at hf
    cases hf
    refine ⟨by simp [(mem_cached s r.id).2 (Or.inl hm)], h2, ?_, by rw [h5], by simp⟩
    intro o ho
    rw [h4] at ho
    obtain ⟨o', ho', rfl⟩ := List.mem_map.1 ho
    by_cases he : o'.id = r.id
    · right; simp only [he, if_true]; exact ⟨he, trivial, o', ho', he, rfl⟩
    · left; simp only [he, if_false]; exact ⟨he, ho'⟩
  · obtain ⟨s'', h1, h2, h3, h4, h5, h6, h7⟩ := findMain h hm
    rw [show algo.find s r true = find s r true from rfl, h1] at hf
    injection hf with hf
    injection hf with hb hs
    subst hs
    have hiff := mem_cached s r.id
    refine ⟨by rw [← hb]; exact decide_eq_decide.2 ⟨fun hx => hiff.2 (Or.inr hx), fun hx => (hiff.1 hx).resolve_left hm⟩, h2, ?_, h5, ?_⟩
    · intro o ho
      rw [h4] at ho
      exact Or.inl ⟨fun e => hm (List.mem_map.2 ⟨o, ho, e⟩), ho⟩
    · intro hbf
      rw [hbf] at hb
      have hnm : r.id ∉ s.main.objs.map (·.id) := by simpa using hb
      refine ⟨h7, h4, ?_, h6⟩
      obtain ⟨g', hg1, _⟩ := ghostRemove_spec h.ghost r.id
      have hf1 := h.fifo.findFIFO_miss (u := true) hm
      have hf2 := h.main.findFIFO_miss (u := true) hnm
      simp only [find, if_true, findUpdate, hf1, hg1, Res.bind_ok, hf2] at h1
      injection h1 with h1
      injection h1 with _ h1
      rw [← h1]

/-- What a `get` does to the queues. -/
theorem get_queues {cs fs gs thr : Nat} {p : Perms} {s s' : State} {r : Req} {b : Bool}
    (h : Inv cs fs gs thr (p.ins = false) s) (hg : algo.get s r = .ok (b, s')) :
    (∀ o ∈ s'.fifo.objs, (o.id ≠ r.id ∧ o ∈ s.fifo.objs) ∨
      (o.id = r.id ∧ b = true ∧ ∃ o' ∈ s.fifo.objs, o'.id = r.id ∧ o.mt = o'.mt + 1) ∨ (o.id = r.id ∧ b = false ∧ o.mt = 0)) ∧
    (∀ i ∈ s'.main.objs.map (·.id), i ∈ s.main.objs.map (·.id) ∨ (∃ o ∈ s.fifo.objs, o.id = i ∧ thr ≤ o.mt) ∨
      (i = r.id ∧ i ∈ ghostIds s.ghost)) ∧
    (b = false → (r.size < fs ∨ (r.size = fs ∧ r.id ∈ ghostIds s.ghost)) → (r.id, r.size % u32) ∈ cached s') ∧
    (b = false → r.size > fs → s'.fifo = s.fifo ∧ s'.main = s.main) := by
  have C := medium (cs := cs) (fs := fs) gs thr p
  by_cases hin : r.id ∈ (cached s).ids
  · obtain ⟨s1, hf, _⟩ := C.findHit r (bump_inv h) hin (Fresh.bump trivial h)
    rw [get_hit hf] at hg
    cases hg
    obtain ⟨_, _, h3, h4, _⟩ := find_queues (bump_inv h) hf
    refine ⟨fun o ho => ?_, fun i hi => Or.inl (by rw [h4] at hi; exact hi), by simp, by simp⟩
    rcases h3 o ho with h | h
    · exact Or.inl h
    · exact Or.inr (Or.inl h)
  · obtain ⟨s1, hf, hi1, hcase⟩ := C.miss r trivial h hin
    obtain ⟨_, _, h3, h4, h5⟩ := find_queues (bump_inv h) hf
    obtain ⟨hflag, hfe, hme, hgp⟩ := h5 rfl
    have hcan : algo.canInsert s1 r = (decide (r.size ≤ fs), s1) := by
      show (decide (r.size ≤ s1.fifo.base.cacheSize), s1) = _
      rw [hi1.fifo.csz]
    rw [hcan] at hcase
    simp only at hcase
    have hnf : ∀ o ∈ s.fifo.objs, o.id ≠ r.id := fun o ho e =>
      hin ((mem_cached s r.id).2 (Or.inl (List.mem_map.2 ⟨o, ho, e⟩)))
    rcases hcase with ⟨hno, hg', _⟩ | ⟨hyes, s3, s4, vs, hg', h3i, hrd, hn3, hme3, hins, _, hloop, _⟩
    · rw [hg'] at hg; cases hg
      have hfs : ¬ r.size ≤ fs := by simpa using hno
      refine ⟨fun o ho => Or.inl ⟨hnf o (by rw [hfe] at ho; exact ho), by rw [hfe] at ho; exact ho⟩,
        fun i hi => Or.inl (by rw [hme] at hi; exact hi), fun _ hx => ?_, fun _ _ => ⟨hfe, hme⟩⟩
      omega
    · rw [hg'] at hg; cases hg
      have hle : r.size ≤ fs := by simpa using hyes
      have hE := evictLoop_rel r _ _ _ hi1 hloop
      obtain ⟨s4', k1, k2, k3, k4⟩ := insert_spec h3i r hn3 hme3 hrd.2
      rw [show algo.insert s3 r = insert s3 r from rfl, k1] at hins
      cases hins
      have hfifo3 : ∀ o ∈ s3.fifo.objs, o ∈ s.fifo.objs := fun o ho => by
        have := hE.fifo o ho; rw [hfe] at this; exact this
      have hmain3 : ∀ i ∈ s3.main.objs.map (·.id), i ∈ s.main.objs.map (·.id) ∨ ∃ o ∈ s.fifo.objs, o.id = i ∧ thr ≤ o.mt := fun i hi => by
        have := hE.main i hi; rw [hfe, hme] at this; exact this
      have hflag3 : s3.hitOnGhost = decide (r.id ∈ ghostIds s.ghost) := by rw [hE.flag, hflag]; rfl
      refine ⟨?_, ?_, ?_, fun _ hx => by omega⟩
      · intro o ho
        rcases k4 with ⟨_, e1, _⟩ | ⟨_, _, e1⟩ | ⟨_, _, _, e1⟩
        · rw [e1] at ho; exact Or.inl ⟨hnf o (hfifo3 o ho), hfifo3 o ho⟩
        · rw [e1] at ho; exact Or.inl ⟨hnf o (hfifo3 o ho), hfifo3 o ho⟩
        · rw [e1] at ho
          rcases List.mem_cons.1 ho with rfl | ho
          · exact Or.inr (Or.inr ⟨rfl, rfl, rfl⟩)
          · exact Or.inl ⟨hnf o (hfifo3 o ho), hfifo3 o ho⟩
      · intro i hi
        have old : i ∈ s3.main.objs.map (·.id) → i ∈ s.main.objs.map (·.id) ∨ (∃ o ∈ s.fifo.objs, o.id = i ∧ thr ≤ o.mt) ∨
            (i = r.id ∧ i ∈ ghostIds s.ghost) := fun hi => (hmain3 i hi).elim Or.inl (fun x => Or.inr (Or.inl x))
        rcases k4 with ⟨hh, _, e2⟩ | ⟨_, _, e1⟩ | ⟨_, _, e1, _⟩
        · rw [e2, List.map_cons] at hi
          rcases List.mem_cons.1 hi with rfl | hi
          · rw [hh] at hflag3
            have hgm : r.id ∈ ghostIds s.ghost := by simpa using hflag3.symm
            exact Or.inr (Or.inr ⟨rfl, hgm⟩)
          · exact old hi
        · rw [e1] at hi; exact old hi
        · rw [e1] at hi; exact old hi
      · intro _ hsz
        rcases k4 with ⟨_, _, e2⟩ | ⟨hh, hge, _⟩ | ⟨_, _, _, e1⟩
        · unfold cached; rw [e2]; exact List.mem_append_right _ (by simp [Obj.ofReq])
        · rcases hsz with hsz | ⟨_, hsz⟩
          · omega
          · rw [hh] at hflag3
            have := hflag3.symm
            simp [hsz] at this
        · unfold cached; rw [e1]; exact List.mem_append_left _ (by simp [Obj.ofReq])

/-! ### Frequencies count hits -/

def FreqOk (s : State) (h : List (Op × Bool)) : Prop := ∀ o ∈ s.fifo.objs, o.mt = hitsSince h o.id

theorem hitsSince_append (h : List (Op × Bool)) (e : Op × Bool) (id : ObjId) :
    hitsSince (h ++ [e]) id = hitStep id (hitsSince h id) e := by simp [hitsSince]

theorem step_freq {cs fs gs thr : Nat} {p : Perms} {s s' : State} {b : Bool} {op : Op}
    {h : List (Op × Bool)} (hi : Inv cs fs gs thr (p.ins = false) s) (hop : Calls p (fun _ => True) op) (hf : FreqOk s h)
    (hs : algo.step s op = .ok (b, s')) : FreqOk s' (h ++ [(op, b)]) := by
  intro o ho
  rw [hitsSince_append]
  cases op with
  | get r =>
    have hs' : algo.get s r = .ok (b, s') := hs
    rcases (get_queues hi hs').1 o ho with ⟨hne, ho⟩ | ⟨he, hb, o', ho', he', hmt⟩ | ⟨he, hb, hmt⟩
    · simp only [hitStep, if_neg (Ne.symm hne)]; exact hf o ho
    · simp only [hitStep, if_pos he.symm, hb, if_true]
      rw [hmt, hf o' ho', he', he]
    · simp only [hitStep, if_pos he.symm, hb, Bool.false_eq_true, if_false]; exact hmt
  | find r u =>
    cases u with
    | false =>
      have hs' : find s r false = .ok (b, s') := hs
      rw [find_false hi] at hs'
      cases hs'
      exact hf o ho
    | true =>
      have hs' : algo.find s r true = .ok (b, s') := hs
      rcases (find_queues hi hs').2.2.1 o ho with ⟨hne, ho⟩ | ⟨he, hb, o', ho', he', hmt⟩
      · simp only [hitStep, Ne.symm hne, false_and, if_false]; exact hf o ho
      · simp only [hitStep, he.symm, hb, and_self, if_true]
        rw [hmt, hf o' ho', he', he]
  | remove id =>
    obtain ⟨b2, s'', k1, k2, k3, k4, k5, k6⟩ := remove_any hi id
    have hs' : remove s id = .ok (b, s') := hs
    rw [k1] at hs'
    cases hs'
    exact hf o (k5 o ho)
  | evict r =>
    simp only [Algo.step] at hs
    split at hs
    · obtain ⟨s1, vs, k1, k2, k3, k4, k5, k6, k7, k8, k9⟩ := evict_spec hi
      rw [show algo.evict s r = evict s from rfl, k1, Res.bind_ok] at hs
      cases hs
      exact hf o (k9 o ho)
    · cases hs; exact hf o ho
  | insert r =>
    simp only [Algo.step] at hs
    rw [show algo.find s r false = find s r false from rfl, find_false hi, Res.bind_ok] at hs
    simp only at hs
    split at hs
    · rename_i hc
      have hn : r.id ∉ (cached s).ids := by simpa using hc.1
      obtain ⟨s1, k1, k2, k3, k4⟩ := insert_spec hi r hn hc.2 (fun hd => by have := hop.1; rw [hd] at this; simp at this)
      rw [show algo.insert s r = insert s r from rfl, k1, Res.bind_ok] at hs
      cases hs
      have hnf : ∀ o ∈ s.fifo.objs, r.id ≠ o.id := fun o ho e =>
        hn ((mem_cached s r.id).2 (Or.inl (List.mem_map.2 ⟨o, ho, e.symm⟩)))
      rcases k4 with ⟨_, e1, _⟩ | ⟨_, _, e1⟩ | ⟨_, _, _, e1⟩
      · rw [e1] at ho; simp only [hitStep, if_neg (hnf o ho)]; exact hf o ho
      · rw [e1] at ho; simp only [hitStep, if_neg (hnf o ho)]; exact hf o ho
      · rw [e1] at ho
        rcases List.mem_cons.1 ho with rfl | ho
        · simp [hitStep, Obj.ofReq]
        · simp only [hitStep, if_neg (hnf o ho)]; exact hf o ho
    · cases hs; exact hf o ho

theorem zip_append_single (ops : List Op) (out : List Bool) (op : Op) (b : Bool) (h : ops.length = out.length) :
    (ops ++ [op]).zip (out ++ [b]) = ops.zip out ++ [(op, b)] := by
  rw [List.zip_append h]; rfl

theorem reach_freq {cs fs gs thr : Nat} {p : Perms} {s0 : State}
    (h0 : Inv cs fs gs thr (p.ins = false) s0) (he : s0.fifo.objs = []) : ∀ (ops : List Op) (out : List Bool) (s : State),
    (∀ op ∈ ops, Calls p (fun _ => True) op) → Reaches algo s0 ops out s →
    FreqOk s (ops.zip out) ∧ ops.length = out.length := by
  have C := medium (cs := cs) (fs := fs) gs thr p
  intro ops
  induction ops using List.reverseRecOn with
  | nil =>
    intro out s _ h
    simp only [Reaches, Algo.run] at h
    cases h
    exact ⟨by intro o ho; rw [he] at ho; simp at ho, rfl⟩
  | append_singleton ops op ih =>
    intro out s ho h
    have ho' : ∀ o ∈ ops, Calls p (fun _ => True) o := fun o h => ho o (by simp [h])
    obtain ⟨out1, s1, hr1, hi1⟩ := C.run ops h0 ho'
    obtain ⟨hf1, hl1⟩ := ih out1 s1 ho' hr1
    unfold Reaches at h
    rw [run_append, hr1] at h
    obtain ⟨b, s2, hst, hi2, _⟩ := C.step op (ho op (by simp)) hi1
    simp only [Algo.run, hst, Res.bind_ok] at h
    cases h
    refine ⟨?_, by simp [hl1]⟩
    rw [zip_append_single _ _ _ _ hl1]
    exact step_freq hi1 (ho op (by simp)) hf1 hst

/-- What any call does to the main queue. -/
theorem step_main {cs fs gs thr : Nat} {p : Perms} (hins : p.ins = false) {s s' : State}
    {b : Bool} {op : Op} (hi : Inv cs fs gs thr (p.ins = false) s) (hop : Calls p (fun _ => True) op)
    (hs : algo.step s op = .ok (b, s')) : ∀ i ∈ s'.main.objs.map (·.id), i ∈ s.main.objs.map (·.id) ∨
      (∃ o ∈ s.fifo.objs, o.id = i ∧ thr ≤ o.mt) ∨ ∃ r, op = .get r ∧ i = r.id ∧ i ∈ ghostIds s.ghost := by
  intro i hx
  cases op with
  | get r =>
    have hs' : algo.get s r = .ok (b, s') := hs
    rcases (get_queues hi hs').2.1 i hx with h | h | ⟨h1, h2⟩
    · exact Or.inl h
    · exact Or.inr (Or.inl h)
    · exact Or.inr (Or.inr ⟨r, rfl, h1, h2⟩)
  | find r u =>
    cases u with
    | false =>
      have hs' : find s r false = .ok (b, s') := hs
      rw [find_false hi] at hs'
      cases hs'
      exact Or.inl hx
    | true =>
      have hs' : algo.find s r true = .ok (b, s') := hs
      rw [(find_queues hi hs').2.2.2.1] at hx
      exact Or.inl hx
  | remove id =>
    obtain ⟨b2, s'', k1, k2, k3, k4, k5, k6⟩ := remove_any hi id
    have hs' : remove s id = .ok (b, s') := hs
    rw [k1] at hs'
    cases hs'
    exact Or.inl (k4 i hx)
  | evict r =>
    simp only [Algo.step] at hs
    split at hs
    · obtain ⟨s1, vs, k1, k2, k3, k4, k5, k6, k7, k8, k9⟩ := evict_spec hi
      rw [show algo.evict s r = evict s from rfl, k1, Res.bind_ok] at hs
      cases hs
      exact (k8 i hx).elim Or.inl (fun h => Or.inr (Or.inl h))
    · cases hs; exact Or.inl hx
  | insert r =>
    have := hop.1
    rw [hins] at this
    simp at this

end S3FIFO
end Verif
