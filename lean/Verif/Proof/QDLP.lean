import Verif.Proof.MainCache
import Verif.Proof.QRep
import Verif.Proof.S3FIFO
import Verif.Spec.History
/-!
# QDLP meets the contract, over any main cache
-/

namespace Verif
open Spec

namespace QDLP
variable {τ : Type}

theorem ids_sub {c c' : Contents} (h : c.Subperm c') {i : ObjId} (hi : i ∈ c.ids) : i ∈ c'.ids := by
  by_contra hn
  exact notMem_ids_of_subperm h hn hi

/-- what is cached: the small queue and the main cache -/
def cached (cachedM : τ → Contents) (s : State τ) : Contents := cont s.fifo.objs ++ cachedM s.main

/-- `d`: the client does not call `insert`; `e`: the client may call `evict` -/
structure Inv (cachedM : τ → Contents) (InvM : τ → Prop) (cs fs gs : Nat) (thr : Int) (d e : Prop) (s : State τ) : Prop where
  csz : s.cacheSize = cs
  le : fs ≤ cs
  fifo : Rep fs 0 s.fifo s.fifo.objs
  main : InvM s.main
  dis : ∀ i ∈ s.fifo.objs.map (·.id), i ∉ (cachedM s.main).ids
  cap : charge 0 (cached cachedM s) ≤ cs
  ghost : GhostInv gs s.ghost
  thrz : s.threshold = thr
  sep : d → ∀ i ∈ ghostIds s.ghost, i ∉ (cached cachedM s).ids
  pos : e → ∀ o ∈ s.fifo.objs, 0 < o.size

def measure (cachedM : τ → Contents) (s : State τ) : Nat := 2 * s.fifo.objs.length + (cachedM s.main).length

section
variable {M : Algo τ} {cachedM : τ → Contents} {InvM : τ → Prop} {zero : τ → ObjId → Bool} {cs fs gs : Nat} {thr : Int} {d e : Prop} {s : State τ}

theorem inv_mk {lf : List (Obj Unit)} (hcs : s.cacheSize = cs) (hle : fs ≤ cs)
    (hf : Rep fs 0 s.fifo lf) (hm : InvM s.main) (hdis : ∀ i ∈ lf.map (·.id), i ∉ (cachedM s.main).ids)
    (hcap : charge 0 (cont lf ++ cachedM s.main) ≤ cs) (hg : GhostInv gs s.ghost) (ht : s.threshold = thr)
    (hsep : d → ∀ i ∈ ghostIds s.ghost, i ∉ Contents.ids (cont lf ++ cachedM s.main)) (hpos : e → ∀ o ∈ lf, 0 < o.size) :
    Inv cachedM InvM cs fs gs thr d e s := by
  have e1 := hf.objs
  have ec : cached cachedM s = cont lf ++ cachedM s.main := by rw [cached, e1]
  exact ⟨hcs, hle, by rw [e1]; exact hf, hm, by rw [e1]; exact hdis, by rw [ec]; exact hcap, hg, ht, by rw [ec]; exact hsep, by rw [e1]; exact hpos⟩

theorem inv_init (main : τ) (hm : InvM main) (h0 : cachedM main = []) (gs : Nat) (thr : Int) (d e : Prop) (h : fs ≤ cs) :
    Inv cachedM InvM cs fs gs thr d e (init main cs fs gs thr) := by
  refine inv_mk (s := init main cs fs gs thr) rfl h (Rep.init fs 0 .none) hm (by simp) ?_ (ghostInv_init gs) rfl ?_ (by simp)
  · show charge 0 (cont [] ++ cachedM main) ≤ cs
    rw [h0]; simp [charge]
  · intro _ i _
    show i ∉ Contents.ids (cont [] ++ cachedM main)
    rw [h0]; simp [Contents.ids]

theorem mem_cached (s : State τ) (i : ObjId) :
    i ∈ (cached cachedM s).ids ↔ i ∈ s.fifo.objs.map (·.id) ∨ i ∈ (cachedM s.main).ids := by
  rw [cached, Contents.ids, List.map_append, List.mem_append, ← cont_ids]

theorem Inv.occ (C : MainCache M cachedM InvM zero (cs - fs)) (h : Inv cachedM InvM cs fs gs thr d e s) :
    (algo M zero).occ s = (charge 0 (cached cachedM s) : Nat) := by
  show s.fifo.base.occ + M.occ s.main = _
  rw [h.fifo.occ, C.occ h.main, cached, charge_append]; push_cast; rfl

theorem Inv.nodup (C : MainCache M cachedM InvM zero (cs - fs)) (h : Inv cachedM InvM cs fs gs thr d e s) : (cached cachedM s).ids.Nodup := by
  have : (cached cachedM s).ids = s.fifo.objs.map (·.id) ++ (cachedM s.main).ids := by
    rw [cached, Contents.ids, List.map_append, ← cont_ids]
  rw [this, List.nodup_append]
  exact ⟨h.fifo.nodup, C.nodup h.main, fun a ha b hb e => h.dis a ha (e ▸ hb)⟩

/-- the small queue holds bytes or the main cache holds objects -/
def Busy (cachedM : τ → Contents) (s : State τ) : Prop := charge 0 (cont s.fifo.objs) = 0 → cachedM s.main ≠ []

/-- One call of `evict`. -/
theorem evict_spec (C : MainCache M cachedM InvM zero (cs - fs)) (h : Inv cachedM InvM cs fs gs thr d e s) (hb : Busy cachedM s) (r : Req) :
    ∃ s', evict M s r = .ok s' ∧ Inv cachedM InvM cs fs gs thr d e s' ∧ (cached cachedM s').Subperm (cached cachedM s) ∧
      measure cachedM s' < measure cachedM s ∧ s'.hitOnGhost = s.hitOnGhost ∧
      (∀ i ∈ ghostIds s'.ghost, i ∈ ghostIds s.ghost ∨ i ∈ (cached cachedM s).ids) ∧
      (charge 0 (cont s.fifo.objs) = 0 → s'.fifo = s.fifo ∧ s'.ghost = s.ghost ∧ M.evict s.main r = .ok s'.main ∧
        ∃ v, (cachedM s.main).Perm (v :: cachedM s'.main)) ∧
      (0 < charge 0 (cont s.fifo.objs) → ∃ l o, s.fifo.objs = l ++ [o] ∧ s'.fifo.objs = l ∧
        (o.miscFreq ≥ thr → s'.ghost = s.ghost ∧ M.get s.main o.toReq = .ok (false, s'.main)) ∧
        (o.miscFreq < thr → s'.main = s.main ∧ ghostGet s.ghost o.toReq = .ok s'.ghost)) := by
  have hfo := h.fifo.occ
  by_cases hc : charge 0 (cont s.fifo.objs) = 0
  · have hocc : s.fifo.base.occ = 0 := by rw [hfo, hc]; rfl
    obtain ⟨m', v, k1, k2, k3⟩ := C.evict r h.main (hb hc)
    have hmo : M.occ s.main ≤ s.cacheSize := by
      rw [C.occ h.main, h.csz]
      have := C.cap h.main
      omega
    have hsub : (cachedM m').Subperm (cachedM s.main) := (List.Sublist.subperm (List.sublist_cons_self _ _)).trans k3.symm.subperm
    have hsubc : (cont s.fifo.objs ++ cachedM m').Subperm (cached cachedM s) := (List.subperm_append_left _).2 hsub
    refine ⟨{ s with main := m' }, ?_, ?_, hsubc, ?_, rfl, fun i hi => Or.inl hi, fun _ => ⟨rfl, rfl, k1, v, k3⟩, fun hp => by omega⟩
    · rw [evict, if_pos hocc, if_pos hmo, k1]; rfl
    · refine inv_mk (s := { s with main := m' }) h.csz h.le h.fifo k2 ?_ ?_ h.ghost h.thrz ?_ h.pos
      · intro i hi hi'
        exact h.dis i hi (ids_sub hsub hi')
      · exact Nat.le_trans (charge_subperm hsubc) h.cap
      · intro hd i hi hi'
        exact h.sep hd i hi (ids_sub hsubc hi')
    · have := k3.length_eq
      simp only [measure, List.length_cons] at this ⊢
      omega
  · have hpos : 0 < charge 0 (cont s.fifo.objs) := by omega
    obtain ⟨l, o, hl⟩ := exists_last_of_charge hpos
    have hocc : ¬ s.fifo.base.occ = 0 := by rw [hfo]; omega
    have ht := h.fifo.tailObj hl
    obtain ⟨f', hf1, hf2⟩ := h.fifo.evictTail hl
    have hsz : o.size + 0 < u32 := h.fifo.small o (by simp [hl])
    have hmodo : o.size % u32 = o.size := Nat.mod_eq_of_lt (by omega)
    have hnm : o.id ∉ (cachedM s.main).ids := h.dis o.id (by simp [hl])
    have hnl : o.id ∉ l.map (·.id) := by
      have := h.fifo.nodup
      rw [hl, List.map_append, List.nodup_append] at this
      intro hx
      exact this.2.2 o.id hx o.id (by simp) rfl
    have hposl : e → ∀ x ∈ l, 0 < x.size := fun he x hx => h.pos he x (by simp [hl, hx])
    have hdisl : ∀ i ∈ l.map (·.id), i ∉ (cachedM s.main).ids := fun i hi => h.dis i (by rw [hl, List.map_append]; exact List.mem_append_left _ hi)
    have ecs : cached cachedM s = cont l ++ [(o.id, o.size)] ++ cachedM s.main := by rw [cached, hl, cont_append]; rfl
    have hmid : (cont l ++ (o.id, o.size) :: cachedM s.main).Perm (cached cachedM s) := by rw [ecs]; simp
    by_cases hth : o.miscFreq ≥ thr
    · have hth' : o.miscFreq ≥ s.threshold := by rw [h.thrz]; exact hth
      have main : ∀ m', M.get s.main o.toReq = .ok (false, m') → InvM m' → (cachedM m').Subperm ((o.id, o.size) :: cachedM s.main) →
          ∃ s', evict M s r = .ok s' ∧ Inv cachedM InvM cs fs gs thr d e s' ∧ (cached cachedM s').Subperm (cached cachedM s) ∧
          measure cachedM s' < measure cachedM s ∧ s'.hitOnGhost = s.hitOnGhost ∧
          (∀ i ∈ ghostIds s'.ghost, i ∈ ghostIds s.ghost ∨ i ∈ (cached cachedM s).ids) ∧
          (charge 0 (cont s.fifo.objs) = 0 → s'.fifo = s.fifo ∧ s'.ghost = s.ghost ∧ M.evict s.main r = .ok s'.main ∧
            ∃ v, (cachedM s.main).Perm (v :: cachedM s'.main)) ∧
          (0 < charge 0 (cont s.fifo.objs) → ∃ l o, s.fifo.objs = l ++ [o] ∧ s'.fifo.objs = l ∧
            (o.miscFreq ≥ thr → s'.ghost = s.ghost ∧ M.get s.main o.toReq = .ok (false, s'.main)) ∧
            (o.miscFreq < thr → s'.main = s.main ∧ ghostGet s.ghost o.toReq = .ok s'.ghost)) := by
        intro m' g1 g2 g3
        have hsubc : (cont l ++ cachedM m').Subperm (cached cachedM s) :=
          ((List.subperm_append_left _).2 g3).trans hmid.subperm
        have ec : cached cachedM { s with main := m', fifo := f' } = cont l ++ cachedM m' := by
          unfold cached; simp only; rw [hf2.objs]
        refine ⟨{ s with main := m', fifo := f' }, ?_, ?_, by rw [ec]; exact hsubc, ?_, rfl, fun i hi => Or.inl hi, fun h0 => by omega,
          fun _ => ⟨l, o, hl, hf2.objs, fun _ => ⟨rfl, g1⟩, fun h0 => by omega⟩⟩
        · rw [evict, if_neg hocc, ht, Res.bind_ok, if_pos hth', g1, Res.bind_ok, hf1]; rfl
        · refine inv_mk (s := { s with main := m', fifo := f' }) h.csz h.le hf2 g2 ?_ ?_ h.ghost h.thrz ?_ hposl
          · intro i hi hi'
            rcases List.mem_cons.1 (ids_sub g3 hi') with e | hi'
            · rw [show i = o.id from e] at hi; exact hnl hi
            · exact hdisl i hi hi'
          · exact Nat.le_trans (charge_subperm hsubc) h.cap
          · intro hd i hi hi'
            exact h.sep hd i hi (ids_sub hsubc hi')
        · have := g3.length_le
          have e1 : ({ s with main := m', fifo := f' } : State τ).fifo.objs = l := hf2.objs
          simp only [measure, e1, hl, List.length_append, List.length_cons, List.length_nil] at this ⊢
          omega
      rcases C.getMiss o.toReq h.main hnm with ⟨_, m', g1, g2, g3⟩ | ⟨_, m', vs, kept, g1, g2, g3, g4, _⟩
      · exact main m' g1 g2 (g3.subperm.trans (List.Sublist.subperm (List.sublist_cons_self _ _)))
      · refine main m' g1 g2 ?_
        have e1 : (o.toReq.id, o.toReq.size % u32) = (o.id, o.size) := by simp only [Obj.toReq, hmodo]
        rw [e1] at g4
        refine g4.subperm.trans ((List.subperm_cons _).2 ?_)
        exact (List.Sublist.subperm (List.sublist_append_right vs _)).trans g3.symm.subperm
    · have hth' : ¬ o.miscFreq ≥ s.threshold := by rw [h.thrz]; exact hth
      obtain ⟨g', g1, g2, g3, _⟩ := ghostGet_spec h.ghost o.toReq
      have hsubc : (cont l ++ cachedM s.main).Subperm (cached cachedM s) :=
        ((List.subperm_append_left _).2 (List.Sublist.subperm (List.sublist_cons_self _ _))).trans hmid.subperm
      have ec : cached cachedM { s with ghost := g', fifo := f' } = cont l ++ cachedM s.main := by
        unfold cached; simp only; rw [hf2.objs]
      refine ⟨{ s with ghost := g', fifo := f' }, ?_, ?_, by rw [ec]; exact hsubc, ?_, rfl, ?_, fun h0 => by omega,
        fun _ => ⟨l, o, hl, hf2.objs, fun h0 => by omega, fun _ => ⟨rfl, g1⟩⟩⟩
      · rw [evict, if_neg hocc, ht, Res.bind_ok, if_neg hth', g1, Res.bind_ok, hf1]; rfl
      · refine inv_mk (s := { s with ghost := g', fifo := f' }) h.csz h.le hf2 h.main hdisl ?_ g2 h.thrz ?_ hposl
        · exact Nat.le_trans (charge_subperm hsubc) h.cap
        · intro hd i hi hi'
          rcases g3 i hi with rfl | hi
          · rw [Contents.ids, List.map_append, List.mem_append] at hi'
            rcases hi' with hi' | hi'
            · exact hnl (by rw [← cont_ids]; exact hi')
            · exact hnm hi'
          · exact h.sep hd i hi (ids_sub hsubc hi')
      · have e1 : ({ s with ghost := g', fifo := f' } : State τ).fifo.objs = l := hf2.objs
        simp only [measure, e1, hl, List.length_append, List.length_cons, List.length_nil]
        omega
      · intro i hi
        rcases g3 i hi with rfl | hi
        · exact Or.inr ((mem_cached s _).2 (Or.inl (by rw [hl]; simp [Obj.toReq])))
        · exact Or.inl hi

theorem find_false (C : MainCache M cachedM InvM zero (cs - fs)) (h : Inv cachedM InvM cs fs gs thr d e s) (r : Req) :
    find M s r false = .ok (decide (r.id ∈ (cached cachedM s).ids), s) := by
  by_cases hm : r.id ∈ s.fifo.objs.map (·.id)
  · have h1 := (h.fifo.findFIFO_false r).1
    rw [decide_eq_true hm] at h1
    have hc : r.id ∈ (cached cachedM s).ids := (mem_cached s r.id).2 (Or.inl hm)
    rw [decide_eq_true hc]
    rcases hf : s.fifo.findFIFO r false with ⟨x, f⟩
    rw [hf] at h1
    cases x with
    | none => simp at h1
    | some o => simp [find, hf]
  · have hf := h.fifo.findFIFO_miss (u := false) hm
    have hc : r.id ∈ (cached cachedM s).ids ↔ r.id ∈ (cachedM s.main).ids := by rw [mem_cached]; simp [hm]
    simp [find, hf, C.findF r h.main, hc]

theorem findFifo_hit (h : Inv cachedM InvM cs fs gs thr d e s) {r : Req} (hm : r.id ∈ s.fifo.objs.map (·.id)) :
    ∃ s', find M s r true = .ok (true, s') ∧ Inv cachedM InvM cs fs gs thr d e s' ∧ cached cachedM s' = cached cachedM s ∧
      s'.fifo.objs = modL r.id (touch r) s.fifo.objs ∧ s'.main = s.main ∧ s'.ghost = s.ghost := by
  obtain ⟨o, _, _, hf⟩ := h.fifo.findFIFO_hit hm
  have hrep := h.fifo.modify r.id (touch r) (fun _ => rfl) (fun _ => rfl)
  have hids : (modL r.id (touch r) s.fifo.objs).map (·.id) = s.fifo.objs.map (·.id) := modL_ids _ (touch r) (fun _ => rfl) _
  have hcont : cont (modL r.id (touch r) s.fifo.objs) = cont s.fifo.objs := modL_cont _ (touch r) (fun _ => rfl) (fun _ => rfl) _
  refine ⟨{ s with hitOnGhost := false, fifo := s.fifo.modify r.id (touch r) }, by simp [find, findUpdate, hf], ?_, ?_, hrep.objs, rfl, rfl⟩
  · refine inv_mk (s := { s with hitOnGhost := false, fifo := s.fifo.modify r.id (touch r) }) h.csz h.le hrep h.main (by rw [hids]; exact h.dis) ?_ h.ghost h.thrz ?_ ?_
    · rw [hcont]; exact h.cap
    · rw [hcont]; exact h.sep
    · intro he x hx
      simp only [modL, List.mem_map] at hx
      obtain ⟨y, hy, rfl⟩ := hx
      have := h.pos he y hy
      split <;> exact this
  · unfold cached; simp only; rw [hrep.objs, hcont]

/-- A find with update that does not hit the small queue. -/
theorem findMain (C : MainCache M cachedM InvM zero (cs - fs)) (h : Inv cachedM InvM cs fs gs thr d e s) {r : Req} (hm : r.id ∉ s.fifo.objs.map (·.id)) :
    ∃ s', find M s r true = .ok (decide (r.id ∈ (cachedM s.main).ids), s') ∧ Inv cachedM InvM cs fs gs thr d e s' ∧
      (cached cachedM s').Perm (cached cachedM s) ∧ s'.fifo = s.fifo ∧ M.find s.main r true = .ok (decide (r.id ∈ (cachedM s.main).ids), s'.main) ∧
      (cachedM s'.main).Perm (cachedM s.main) ∧
      (ghostIds s'.ghost).Perm ((ghostIds s.ghost).filter (fun x => x ≠ r.id)) ∧
      s'.hitOnGhost = decide (r.id ∈ ghostIds s.ghost) := by
  obtain ⟨g', hg1, hg2, hg3, _⟩ := ghostRemove_spec h.ghost r.id
  have hfm := h.fifo.findFIFO_miss (u := true) hm
  obtain ⟨m', hm1, hm2, hm3⟩ := C.findT r h.main
  have hpc : (cont s.fifo.objs ++ cachedM m').Perm (cached cachedM s) := hm3.append_left _
  refine ⟨{ s with hitOnGhost := decide (r.id ∈ ghostIds s.ghost), ghost := g', main := m' }, ?_, ?_, hpc, rfl, hm1, hm3, hg3, rfl⟩
  · simp [find, findUpdate, hfm, hg1, hm1]
  · refine inv_mk (s := { s with hitOnGhost := decide (r.id ∈ ghostIds s.ghost), ghost := g', main := m' }) h.csz h.le h.fifo hm2 ?_ ?_ hg2 h.thrz ?_ h.pos
    · intro i hi hi'
      exact h.dis i hi ((hm3.map Prod.fst).subset hi')
    · rw [charge_perm hpc]; exact h.cap
    · intro hd i hi hi'
      exact h.sep hd i (List.mem_of_mem_filter (hg3.subset hi)) ((hpc.map Prod.fst).subset hi')

theorem mustEvict_iff (C : MainCache M cachedM InvM zero (cs - fs)) (h : Inv cachedM InvM cs fs gs thr d e s) (r : Req) :
    (algo M zero).mustEvict s r = true ↔ charge 0 (cached cachedM s) + r.size > cs := by
  simp only [Algo.mustEvict, decide_eq_true_eq, h.occ C]
  have e1 : ((algo M zero).cacheSize s : Int) = cs := by show (s.cacheSize : Int) = cs; rw [h.csz]
  have e2 : ((algo M zero).md s : Int) = 0 := rfl
  rw [e1, e2]
  omega

/-- `insert`: into the main cache after a ghost hit, otherwise into the small queue unless the object is as large as that. -/
theorem insert_spec (C : MainCache M cachedM InvM zero (cs - fs)) (h : Inv cachedM InvM cs fs gs thr d e s) (r : Req)
    (hn : r.id ∉ (cached cachedM s).ids) (hroom : (algo M zero).mustEvict s r = false) (hg : d → r.id ∉ ghostIds s.ghost)
    (hms : s.hitOnGhost = true → r.size ≤ cs - fs) (hz : e → 0 < r.size % u32) :
    ∃ s', insert M zero s r = .ok s' ∧ Inv cachedM InvM cs fs gs thr d e s' ∧ s'.ghost = s.ghost ∧
      (cached cachedM s').Subperm ((r.id, r.size % u32) :: cached cachedM s) ∧
      ((s.hitOnGhost = true ∧ s'.fifo = s.fifo ∧ M.get s.main r = .ok (false, s'.main) ∧ r.id ∈ (cachedM s'.main).ids) ∨
       (s.hitOnGhost = false ∧ r.size ≥ fs ∧ s' = s) ∨
       (s.hitOnGhost = false ∧ r.size < fs ∧ s'.main = s.main ∧ s'.fifo.objs = Obj.ofReq () r :: s.fifo.objs)) := by
  have hn0 := hn
  rw [mem_cached, not_or] at hn
  have hroom' : charge 0 (cached cachedM s) + r.size ≤ cs := by
    have := (mustEvict_iff C h r).not
    simp only [hroom, Bool.false_eq_true, not_false_eq_true, true_iff] at this
    omega
  have hmod : r.size % u32 ≤ r.size := Nat.mod_le _ _
  have hcons : charge 0 ((r.id, r.size % u32) :: cached cachedM s) ≤ cs := by simp only [charge]; omega
  have hcsep : ∀ c : Contents, c.Subperm ((r.id, r.size % u32) :: cached cachedM s) → d → ∀ i ∈ ghostIds s.ghost, i ∉ c.ids := by
    intro c hc hd i hi hi'
    rcases List.mem_cons.1 (ids_sub hc hi') with e | hi'
    · exact hg hd (by rw [← show i = r.id from e]; exact hi)
    · exact h.sep hd i hi hi'
  by_cases hh : s.hitOnGhost = true
  · rcases C.getMiss r h.main hn.2 with ⟨hno, _⟩ | ⟨_, m', vs, kept, g1, g2, g3, g4, g5, _⟩
    · exact absurd (hms hh) hno
    · have hin : r.id ∈ (cachedM m').ids := (g4.map Prod.fst).symm.subset (by simp)
      have hk : kept.Subperm (cachedM s.main) := (List.Sublist.subperm (List.sublist_append_right vs _)).trans g3.symm.subperm
      have hsubm : (cachedM m').Subperm ((r.id, r.size % u32) :: cachedM s.main) := g4.subperm.trans ((List.subperm_cons _).2 hk)
      have hsub : (cont s.fifo.objs ++ cachedM m').Subperm ((r.id, r.size % u32) :: cached cachedM s) :=
        ((List.subperm_append_left _).2 hsubm).trans List.perm_middle.subperm
      refine ⟨{ s with hitOnGhost := false, main := m' }, ?_, ?_, rfl, hsub, Or.inl ⟨hh, rfl, g1, hin⟩⟩
      · simp [insert, hh, g1, C.findF r g2, hin, g5]
      · refine inv_mk (s := { s with hitOnGhost := false, main := m' }) h.csz h.le h.fifo g2 ?_ (Nat.le_trans (charge_subperm hsub) hcons) h.ghost h.thrz (hcsep _ hsub) h.pos
        intro i hi hi'
        rcases List.mem_cons.1 (ids_sub hsubm hi') with e | hi'
        · exact hn.1 (by rw [← show i = r.id from e]; exact hi)
        · exact h.dis i hi hi'
  · have hh' : s.hitOnGhost = false := by simpa using hh
    by_cases hsz : r.size ≥ fs
    · refine ⟨s, ?_, h, rfl, List.Sublist.subperm (List.sublist_cons_self _ _), Or.inr (Or.inl ⟨hh', hsz, rfl⟩)⟩
      simp [insert, hh', h.fifo.csz, hsz]
    · obtain ⟨f', k1, k2⟩ := h.fifo.insert () r hn.1 (sizeOk_zero r)
      have ec : cached cachedM { s with fifo := f' } = (r.id, r.size % u32) :: cached cachedM s := by
        unfold cached; simp only; rw [k2.objs]; rfl
      refine ⟨{ s with fifo := f' }, ?_, ?_, rfl, by rw [ec], Or.inr (Or.inr ⟨hh', by omega, rfl, k2.objs⟩)⟩
      · simp [insert, hh', h.fifo.csz, hsz, k1]
      · refine inv_mk (s := { s with fifo := f' }) h.csz h.le k2 h.main ?_ hcons h.ghost h.thrz (hcsep _ (List.Subperm.refl _)) ?_
        · intro i hi
          simp only [List.map_cons, List.mem_cons] at hi
          rcases hi with hi | hi
          · rw [show i = r.id from hi]; exact hn.2
          · exact h.dis i hi
        · intro he o ho
          rcases List.mem_cons.1 ho with rfl | ho
          · exact hz he
          · exact h.pos he o ho

/-- `remove`: from the small queue; or else from the ghost queue; or else from the main cache. -/
theorem remove_any (C : MainCache M cachedM InvM zero (cs - fs)) (h : Inv cachedM InvM cs fs gs thr d e s) (id : ObjId) :
    ∃ b s', remove M s id = .ok (b, s') ∧ Inv cachedM InvM cs fs gs thr d e s' ∧ (cached cachedM s').Subperm (cached cachedM s) ∧
      (∀ o ∈ s'.fifo.objs, o ∈ s.fifo.objs ∧ o.id ≠ id) ∧ (∀ i ∈ ghostIds s'.ghost, i ∈ ghostIds s.ghost) ∧
      (d → b = decide (id ∈ (cached cachedM s).ids ∨ id ∈ ghostIds s.ghost) ∧
        (cached cachedM s').Perm ((cached cachedM s).filter (fun x => x.1 ≠ id))) := by
  have hids := mem_cached (cachedM := cachedM) s
  by_cases hf : id ∈ s.fifo.objs.map (·.id)
  · obtain ⟨f', k1, k2⟩ := h.fifo.remove_hit hf
    have hnm := h.dis id hf
    have ec : cont (delL id s.fifo.objs) ++ cachedM s.main = (cached cachedM s).filter (fun x => x.1 ≠ id) := by
      rw [cached, List.filter_append, delL_cont]
      congr 1
      symm
      exact filter_ids_eq hnm
    have ec' : cached cachedM { s with fifo := f' } = (cached cachedM s).filter (fun x => x.1 ≠ id) := by
      rw [← ec]; unfold cached; simp only; rw [k2.objs]
    have hinc : id ∈ (cached cachedM s).ids := (hids id).2 (Or.inl hf)
    refine ⟨true, { s with fifo := f' }, by simp [remove, k1], ?_, ?_, ?_, fun i hi => hi, fun _ => ⟨?_, ?_⟩⟩
    · refine inv_mk (s := { s with fifo := f' }) h.csz h.le k2 h.main ?_ ?_ h.ghost h.thrz ?_ ?_
      · intro i hi
        rw [delL_ids] at hi
        exact h.dis i (List.mem_of_mem_filter hi)
      · rw [ec]
        exact Nat.le_trans (charge_sublist List.filter_sublist) h.cap
      · intro hd i hi hi'
        rw [ec] at hi'
        exact h.sep hd i hi ((List.Sublist.map _ List.filter_sublist).subset hi')
      · intro he o ho
        exact h.pos he o (List.mem_of_mem_filter ho)
    · rw [ec']; exact List.filter_sublist.subperm
    · intro o ho
      simp only [k2.objs, delL, List.mem_filter] at ho
      exact ⟨ho.1, by simpa using ho.2⟩
    · rw [decide_eq_true (Or.inl hinc)]
    · rw [ec']
  · have k1 := h.fifo.remove_miss hf
    obtain ⟨g', g1, g2, g3, _⟩ := ghostRemove_spec h.ghost id
    have hgsub : ∀ i ∈ ghostIds g', i ∈ ghostIds s.ghost := fun i hi => List.mem_of_mem_filter (g3.subset hi)
    have hfs : ∀ o ∈ s.fifo.objs, o ∈ s.fifo.objs ∧ o.id ≠ id := fun o ho => ⟨ho, fun e => hf (List.mem_map.2 ⟨o, ho, e⟩)⟩
    by_cases hgm : id ∈ ghostIds s.ghost
    · refine ⟨true, { s with ghost := g' }, by simp [remove, k1, g1, hgm], ?_, List.Subperm.refl _, hfs, hgsub, fun hd => ⟨?_, ?_⟩⟩
      · exact inv_mk (s := { s with ghost := g' }) h.csz h.le h.fifo h.main h.dis h.cap g2 h.thrz (fun hd i hi => h.sep hd i (hgsub i hi)) h.pos
      · rw [decide_eq_true (Or.inr hgm)]
      · rw [filter_ids_eq (h.sep hd id hgm)]; exact List.Perm.refl _
    · obtain ⟨m', m1, m2, m3⟩ := C.remove id h.main
      have hperm : (cont s.fifo.objs ++ cachedM m').Perm ((cached cachedM s).filter (fun x => x.1 ≠ id)) := by
        rw [cached, List.filter_append, filter_ids_eq (by rw [cont_ids]; exact hf)]
        exact m3.append_left _
      have hsub : (cont s.fifo.objs ++ cachedM m').Subperm (cached cachedM s) := hperm.subperm.trans List.filter_sublist.subperm
      refine ⟨decide (id ∈ (cachedM s.main).ids), { s with ghost := g', main := m' }, by simp [remove, k1, g1, hgm, m1], ?_, hsub, hfs, hgsub, fun _ => ⟨?_, hperm⟩⟩
      · refine inv_mk (s := { s with ghost := g', main := m' }) h.csz h.le h.fifo m2 ?_ (Nat.le_trans (charge_subperm hsub) h.cap) g2 h.thrz ?_ h.pos
        · intro i hi hi'
          exact h.dis i hi (List.mem_of_mem_filter ((m3.map Prod.fst).subset hi' |> fun hx => by
            rw [show ((cachedM s.main).filter (fun x => decide (x.1 ≠ id))).map Prod.fst = ((cachedM s.main).ids).filter (fun x => decide (x ≠ id)) from by
              rw [Contents.ids, List.filter_map]; rfl] at hx
            exact hx))
        · intro hd i hi hi'
          exact h.sep hd i (hgsub i hi) (ids_sub hsub hi')
      · apply decide_eq_decide.2
        rw [hids]
        simp [hf, hgm]

/-- What is asked of the requests: an object accepted by `can_insert` fits into the main cache; so does every object the client inserts; and the client
calls `evict` only if no object has size 0. -/
def Fits (cs fs : Nat) (p : Perms) (ok : Req → Prop) : Prop :=
  ∀ r, ok r → (r.size ≤ fs → r.size ≤ cs - fs) ∧ (p.ins = true → r.size ≤ cs - fs) ∧ (p.ev = true → 0 < r.size % u32)

/-- What `get` needs when it starts evicting. -/
def Ready (fs : Nat) (d : Prop) (s : State τ) (r : Req) : Prop := r.size ≤ fs ∧ (d → r.id ∉ ghostIds s.ghost)

theorem busy_of_charge (h : 0 < charge 0 (cached cachedM s)) : Busy cachedM s := by
  intro h0 hm
  rw [cached, charge_append, h0, hm] at h
  simp [charge] at h

theorem Inv.busy (h : Inv cachedM InvM cs fs gs thr d e s) (he : e) (hne : cached cachedM s ≠ []) : Busy cachedM s := by
  intro h0 hm
  apply hne
  have : s.fifo.objs = [] := by
    rcases hl : s.fifo.objs with _ | ⟨o, l⟩
    · rfl
    · have hp := h.pos he o (by simp [hl])
      rw [hl, cont_cons, charge] at h0
      simp only at h0
      omega
  rw [cached, this, hm]; rfl

/-- QDLP meets the contract. -/
theorem contract (C : MainCache M cachedM InvM zero (cs - fs)) (gs : Nat) (thr : Int) {p : Perms} {ok : Req → Prop} (hok : Fits cs fs p ok) :
    Contract (algo M zero) (cached cachedM) (Inv cachedM InvM cs fs gs thr (p.ins = false) (p.ev = true)) (Ready fs (p.ins = false))
      (measure cachedM) cs 0 p ok where
  csz := fun h => h.csz
  mdz := fun _ => rfl
  nodup := fun h => h.nodup C
  occ := fun h => h.occ C
  nObj := fun {s} h => by
    show s.fifo.base.nObj + M.nObj s.main = _
    rw [h.fifo.nObj, C.nObj h.main, cached, List.length_append, cont_length]; push_cast; rfl
  cap := fun h => by rw [h.occ C]; have := h.cap; omega
  bump := fun h => ⟨⟨h.csz, h.le, h.fifo, h.main, h.dis, h.cap, h.ghost, h.thrz, h.sep, h.pos⟩, rfl⟩
  findF := fun _ _ r h => find_false C h r
  findHit := fun {s} r h hin _ => by
    by_cases hf : r.id ∈ s.fifo.objs.map (·.id)
    · obtain ⟨s', h1, h2, h3, _⟩ := findFifo_hit (M := M) h hf
      exact ⟨s', h1, h2, by rw [h3]⟩
    · have hm : r.id ∈ (cachedM s.main).ids := ((mem_cached s r.id).1 hin).resolve_left hf
      obtain ⟨s', h1, h2, h3, _⟩ := findMain C h hf
      exact ⟨s', by rw [show (algo M zero).find s r true = find M s r true from rfl, h1]; simp [hm], h2, h3.subperm⟩
  findMiss := fun {s} r h hin _ => by
    rw [mem_cached, not_or] at hin
    obtain ⟨s', h1, h2, h3, _, _, _, h6, _⟩ := findMain C h hin.1
    refine ⟨s', by rw [show (algo M zero).find s r true = find M s r true from rfl, h1]; simp [hin.2], h2, h3, h2, h3, ?_⟩
    intro hc _
    have hc' : decide (r.size ≤ s'.fifo.base.cacheSize) = true := hc
    rw [h2.fifo.csz] at hc'
    refine ⟨by simpa using hc', fun _ hx => ?_⟩
    have := h6.subset hx
    simp at this
  fuel := fun {s} h => by
    show measure cachedM s ≤ 2 * s.fifo.base.tbl.length + (M.nObj s.main).toNat
    rw [measure, h.fifo.perm.length_eq, C.nObj h.main]
    simp
  evictLoop := fun {s} r h _ hr hn hme => by
    have hb : Busy cachedM s := by
      apply busy_of_charge
      rw [mustEvict_iff C h] at hme
      have := hr.1
      have := h.le
      omega
    obtain ⟨s', k1, k2, k3, k4, k5, k6, _⟩ := evict_spec C h hb r
    refine ⟨s', k1, k2, ⟨hr.1, fun hd hx => ?_⟩, k3, k4⟩
    rcases k6 _ hx with hx | hx
    · exact hr.2 hd hx
    · exact hn hx
  insert := fun {s} r h hor hr hn hme => by
    obtain ⟨s', k1, k2, _, k4, _⟩ := insert_spec C h r hn hme hr.2 (fun _ => (hok r hor).1 hr.1) (hok r hor).2.2
    exact ⟨s', k1, k2, k4⟩
  userInsert := fun hpi {s} r h hor hn hme => by
    obtain ⟨s', k1, k2, _, k4, _⟩ := insert_spec C h r hn hme (fun hd => by rw [hpi] at hd; simp at hd) (fun _ => (hok r hor).2.1 hpi) (hok r hor).2.2
    exact ⟨s', k1, k2, k4⟩
  remove := fun _ {s} id h => by
    obtain ⟨b, s', k1, k2, k3, _⟩ := remove_any C h id
    exact ⟨b, s', k1, k2, k3⟩
  evict := fun hpe {s} r h hne => by
    obtain ⟨s', k1, k2, k3, _⟩ := evict_spec C h (h.busy hpe hne) r
    exact ⟨s', k1, k2, k3⟩

end

/-! ### Whole `get` calls -/

section
variable {M : Algo τ} {cachedM : τ → Contents} {InvM : τ → Prop} {zero : τ → ObjId → Bool} {cs fs gs : Nat} {thr : Int}

theorem bump_inv {d e : Prop} {s : State τ} (h : Inv cachedM InvM cs fs gs thr d e s) :
    Inv cachedM InvM cs fs gs thr d e ((algo M zero).bump s) :=
  ⟨h.csz, h.le, h.fifo, h.main, h.dis, h.cap, h.ghost, h.thrz, h.sep, h.pos⟩

/-- The small queue only loses objects, from the old end, and the ghost flag stays. -/
theorem evict_rel (C : MainCache M cachedM InvM zero (cs - fs)) {d e : Prop} {s s' : State τ} (r : Req) (h : Inv cachedM InvM cs fs gs thr d e s)
    (hb : Busy cachedM s) (he : evict M s r = .ok s') : (∃ l, s.fifo.objs = s'.fifo.objs ++ l) ∧ s'.hitOnGhost = s.hitOnGhost := by
  obtain ⟨s'', k1, _, _, _, k5, _, k7, k8⟩ := evict_spec C h hb r
  rw [k1] at he
  cases he
  refine ⟨?_, k5⟩
  by_cases h0 : charge 0 (cont s.fifo.objs) = 0
  · exact ⟨[], by rw [(k7 h0).1, List.append_nil]⟩
  · obtain ⟨l, o, h1, h2, _⟩ := k8 (by omega)
    exact ⟨[o], by rw [h2]; exact h1⟩

theorem evictLoop_rel (C : MainCache M cachedM InvM zero (cs - fs)) {d e : Prop} (r : Req) (hsz : r.size ≤ cs) : ∀ (n : Nat) (s s' : State τ), Inv cachedM InvM cs fs gs thr d e s →
    (algo M zero).evictLoop r n s = .ok s' → (∃ l, s.fifo.objs = s'.fifo.objs ++ l) ∧ s'.hitOnGhost = s.hitOnGhost := by
  intro n
  induction n with
  | zero =>
    intro s s' _ he
    simp only [Algo.evictLoop] at he
    split at he
    · simp at he
    · cases he; exact ⟨⟨[], by simp⟩, rfl⟩
  | succ n ih =>
    intro s s' h he
    simp only [Algo.evictLoop] at he
    split at he
    · rename_i hme
      have hb : Busy cachedM s := by
        apply busy_of_charge
        rw [mustEvict_iff C h] at hme
        omega
      obtain ⟨s1, k1, k2, _⟩ := evict_spec C h hb r
      rw [show (algo M zero).evict s r = evict M s r from rfl, k1, Res.bind_ok] at he
      obtain ⟨⟨l1, e1⟩, f1⟩ := evict_rel C r h hb k1
      obtain ⟨⟨l2, e2⟩, f2⟩ := ih s1 s' k2 he
      exact ⟨⟨l2 ++ l1, by rw [e1, e2, List.append_assoc]⟩, by rw [f2, f1]⟩
    · cases he; exact ⟨⟨[], by simp⟩, rfl⟩

/-- What a find with update does to the small queue. -/
theorem find_fifo (C : MainCache M cachedM InvM zero (cs - fs)) {d e : Prop} {s s' : State τ} {r : Req} {b : Bool} (h : Inv cachedM InvM cs fs gs thr d e s)
    (hf : find M s r true = .ok (b, s')) :
    b = decide (r.id ∈ (cached cachedM s).ids) ∧ Inv cachedM InvM cs fs gs thr d e s' ∧ (cached cachedM s').Perm (cached cachedM s) ∧
    (∀ o ∈ s'.fifo.objs, (o.id ≠ r.id ∧ o ∈ s.fifo.objs) ∨
      (o.id = r.id ∧ b = true ∧ ∃ o' ∈ s.fifo.objs, o'.id = r.id ∧ o.miscFreq = o'.miscFreq + 1)) ∧
    (b = false → s'.hitOnGhost = decide (r.id ∈ ghostIds s.ghost) ∧ s'.fifo = s.fifo ∧ (cachedM s'.main).Perm (cachedM s.main) ∧
      M.find s.main r true = .ok (false, s'.main)) := by
  by_cases hm : r.id ∈ s.fifo.objs.map (·.id)
  · obtain ⟨s'', h1, h2, h3, h4, h5, h6⟩ := findFifo_hit (M := M) h hm
    rw [h1] at hf
    cases hf
    refine ⟨by simp [(mem_cached s r.id).2 (Or.inl hm)], h2, by rw [h3], ?_, by simp⟩
    intro o ho
    rw [h4] at ho
    obtain ⟨o', ho', rfl⟩ := List.mem_map.1 ho
    by_cases he : o'.id = r.id
    · right; simp only [he, if_true]; exact ⟨he, trivial, o', ho', he, rfl⟩
    · left; simp only [he, if_false]; exact ⟨he, ho'⟩
  · obtain ⟨s'', h1, h2, h3, h4, h5, h5', h6, h7⟩ := findMain C h hm
    rw [h1] at hf
    injection hf with hf
    injection hf with hb hs
    subst hs
    have hiff := mem_cached (cachedM := cachedM) s r.id
    refine ⟨by rw [← hb]; exact decide_eq_decide.2 ⟨fun hx => hiff.2 (Or.inr hx), fun hx => (hiff.1 hx).resolve_left hm⟩, h2, h3, ?_, ?_⟩
    · intro o ho
      rw [h4] at ho
      exact Or.inl ⟨fun e => hm (List.mem_map.2 ⟨o, ho, e⟩), ho⟩
    · intro hbf
      rw [← hb] at hbf
      exact ⟨h7, h4, h5', by rw [h5, hbf]⟩

/-- What a `get` does to the small queue, and where a missed object goes. -/
theorem get_fifo (C : MainCache M cachedM InvM zero (cs - fs)) {p : Perms} {ok : Req → Prop} (hok : Fits cs fs p ok) {s s' : State τ} {r : Req} {b : Bool} (hr : ok r)
    (h : Inv cachedM InvM cs fs gs thr (p.ins = false) (p.ev = true) s) (hg : (algo M zero).get s r = .ok (b, s')) :
    (∀ o ∈ s'.fifo.objs, (o.id ≠ r.id ∧ o ∈ s.fifo.objs) ∨
      (o.id = r.id ∧ b = true ∧ ∃ o' ∈ s.fifo.objs, o'.id = r.id ∧ o.miscFreq = o'.miscFreq + 1) ∨ (o.id = r.id ∧ b = false ∧ o.miscFreq = 0)) ∧
    (b = false → r.size ≤ fs → r.id ∈ ghostIds s.ghost → r.id ∈ (cachedM s'.main).ids) ∧
    (b = false → r.size < fs → r.id ∉ ghostIds s.ghost → ∃ l l', s'.fifo.objs = Obj.ofReq () r :: l ∧ s.fifo.objs = l ++ l') ∧
    (b = false → r.size = fs → r.id ∉ ghostIds s.ghost → r.id ∉ (cached cachedM s').ids) ∧
    (b = false → r.size > fs → s'.fifo = s.fifo ∧ M.find s.main r true = .ok (false, s'.main)) := by
  have K := contract (M := M) (zero := zero) C gs thr hok
  by_cases hin : r.id ∈ (cached cachedM s).ids
  · obtain ⟨s1, hf, _⟩ := K.findHit r (bump_inv h) hin (Fresh.bump hr h)
    rw [get_hit hf] at hg
    cases hg
    obtain ⟨_, _, _, h3, _⟩ := find_fifo C (bump_inv (M := M) (zero := zero) h) hf
    refine ⟨fun o ho => ?_, by simp, by simp, by simp, by simp⟩
    rcases h3 o ho with h | h
    · exact Or.inl h
    · exact Or.inr (Or.inl h)
  · obtain ⟨s1, hf, hi1, hp1, hi2, hp2, hrd⟩ := K.findMiss r (bump_inv h) hin (Fresh.bump hr h)
    obtain ⟨_, _, _, h3, h5⟩ := find_fifo C (bump_inv (M := M) (zero := zero) h) hf
    obtain ⟨hflag, hfe, hme, hfm⟩ := h5 rfl
    have hcan : (algo M zero).canInsert s1 r = (decide (r.size ≤ fs), s1) := by
      show (decide (r.size ≤ s1.fifo.base.cacheSize), s1) = _
      rw [hi1.fifo.csz]
    have hnf : ∀ o ∈ s.fifo.objs, o.id ≠ r.id := fun o ho e =>
      hin ((mem_cached s r.id).2 (Or.inl (List.mem_map.2 ⟨o, ho, e⟩)))
    have hfe' : s1.fifo = s.fifo := hfe
    have hflag' : s1.hitOnGhost = decide (r.id ∈ ghostIds s.ghost) := hflag
    by_cases hle : r.size ≤ fs
    · rw [decide_eq_true hle] at hcan
      rw [hcan] at hrd
      have hn2 : r.id ∉ (cached cachedM s1).ids := notMem_ids_of_subperm hp1.subperm hin
      obtain ⟨s3, l1, l2, l3, l4, l5⟩ := K.loop r hr ((algo M zero).fuel s1) s1 hi1 (hrd rfl hr) hn2 (K.fuel hi1)
      have hn3 := notMem_ids_of_subperm l4 hn2
      obtain ⟨s4, k1, k2, k3, _, k4⟩ := insert_spec C l2 r hn3 l5 l3.2 (fun _ => (hok r hr).1 hle) (hok r hr).2.2
      rw [get_accept hf hcan l1 k1] at hg
      cases hg
      obtain ⟨⟨l, e1⟩, e2⟩ := evictLoop_rel C r (by have := h.le; omega) _ _ _ hi1 l1
      rw [hfe'] at e1
      rw [hflag'] at e2
      have hsub : ∀ o ∈ s3.fifo.objs, o ∈ s.fifo.objs := fun o ho => by rw [e1]; exact List.mem_append_left _ ho
      refine ⟨?_, ?_, ?_, ?_, fun _ hx => by omega⟩
      · intro o ho
        rcases k4 with ⟨_, f1, _⟩ | ⟨_, _, f1⟩ | ⟨_, _, _, f1⟩
        · rw [f1] at ho; exact Or.inl ⟨hnf o (hsub o ho), hsub o ho⟩
        · rw [f1] at ho; exact Or.inl ⟨hnf o (hsub o ho), hsub o ho⟩
        · rw [f1] at ho
          rcases List.mem_cons.1 ho with rfl | ho
          · exact Or.inr (Or.inr ⟨rfl, rfl, rfl⟩)
          · exact Or.inl ⟨hnf o (hsub o ho), hsub o ho⟩
      · intro _ _ hgm
        rw [decide_eq_true hgm] at e2
        rcases k4 with ⟨_, _, _, f1⟩ | ⟨f1, _⟩ | ⟨f1, _⟩
        · exact f1
        · rw [e2] at f1; simp at f1
        · rw [e2] at f1; simp at f1
      · intro _ hlt hgm
        rw [decide_eq_false hgm] at e2
        rcases k4 with ⟨f1, _⟩ | ⟨_, f1, _⟩ | ⟨_, _, _, f1⟩
        · rw [e2] at f1; simp at f1
        · omega
        · exact ⟨s3.fifo.objs, l, f1, e1⟩
      · intro _ heq hgm
        rw [decide_eq_false hgm] at e2
        rcases k4 with ⟨f1, _⟩ | ⟨_, _, f1⟩ | ⟨_, f1, _⟩
        · rw [e2] at f1; simp at f1
        · rw [f1]; exact hn3
        · omega
    · rw [decide_eq_false hle] at hcan
      rw [get_reject hf hcan] at hg
      cases hg
      refine ⟨?_, fun _ hx => by omega, fun _ hx => by omega, fun _ hx => by omega, fun _ _ => ⟨hfe, hfm⟩⟩
      intro o ho
      rw [hfe'] at ho
      exact Or.inl ⟨hnf o ho, ho⟩

/-! ### Frequencies count hits -/

def FreqOk (s : State τ) (h : List (Op × Bool)) : Prop := ∀ o ∈ s.fifo.objs, o.miscFreq = (hitsSince h o.id : Int)

theorem step_freq (C : MainCache M cachedM InvM zero (cs - fs)) {p : Perms} {ok : Req → Prop} (hok : Fits cs fs p ok) {s s' : State τ} {b : Bool} {op : Op}
    {h : List (Op × Bool)} (hi : Inv cachedM InvM cs fs gs thr (p.ins = false) (p.ev = true) s) (hop : Calls p ok op) (hf : FreqOk s h)
    (hs : (algo M zero).step s op = .ok (b, s')) : FreqOk s' (h ++ [(op, b)]) := by
  intro o ho
  rw [S3FIFO.hitsSince_append]
  cases op with
  | get r =>
    have hs' : (algo M zero).get s r = .ok (b, s') := hs
    rcases (get_fifo C hok hop hi hs').1 o ho with ⟨hne, ho⟩ | ⟨he, hb, o', ho', he', hmt⟩ | ⟨he, hb, hmt⟩
    · simp only [hitStep, if_neg (Ne.symm hne)]; exact hf o ho
    · simp only [hitStep, if_pos he.symm, hb, if_true]
      rw [hmt, hf o' ho', he', he]; push_cast; rfl
    · simp only [hitStep, if_pos he.symm, hb, Bool.false_eq_true, if_false]; exact hmt
  | find r u =>
    cases u with
    | false =>
      have hs' : find M s r false = .ok (b, s') := hs
      rw [find_false C hi] at hs'
      cases hs'
      exact hf o ho
    | true =>
      have hs' : find M s r true = .ok (b, s') := hs
      rcases (find_fifo C hi hs').2.2.2.1 o ho with ⟨hne, ho⟩ | ⟨he, hb, o', ho', he', hmt⟩
      · simp only [hitStep, Ne.symm hne, false_and, if_false]; exact hf o ho
      · simp only [hitStep, he.symm, hb, and_self, if_true]
        rw [hmt, hf o' ho', he', he]; push_cast; rfl
  | remove id =>
    obtain ⟨b2, s'', k1, k2, k3, k4, _⟩ := remove_any C hi id
    have hs' : remove M s id = .ok (b, s') := hs
    rw [k1] at hs'
    cases hs'
    exact hf o (k4 o ho).1
  | evict r =>
    simp only [Algo.step] at hs
    split at hs
    · rename_i hpos
      have hne : cached cachedM s ≠ [] := by
        intro h0
        have := (contract (M := M) (zero := zero) C gs thr hok).nObj hi
        rw [h0] at this
        simp only [List.length_nil] at this
        omega
      have hb := hi.busy hop hne
      obtain ⟨s1, k1, _⟩ := evict_spec C hi hb r
      obtain ⟨⟨l, e1⟩, _⟩ := evict_rel C r hi hb k1
      rw [show (algo M zero).evict s r = evict M s r from rfl, k1, Res.bind_ok] at hs
      cases hs
      exact hf o (by rw [e1]; exact List.mem_append_left _ ho)
    · cases hs; exact hf o ho
  | insert r =>
    simp only [Algo.step] at hs
    rw [show (algo M zero).find s r false = find M s r false from rfl, find_false C hi, Res.bind_ok] at hs
    simp only at hs
    split at hs
    · rename_i hc
      have hn : r.id ∉ (cached cachedM s).ids := by simpa using hc.1
      obtain ⟨s1, k1, k2, k3, _, k4⟩ := insert_spec C hi r hn hc.2 (fun hd => by have := hop.1; rw [hd] at this; simp at this)
        (fun _ => (hok r hop.2).2.1 hop.1) (hok r hop.2).2.2
      rw [show (algo M zero).insert s r = insert M zero s r from rfl, k1, Res.bind_ok] at hs
      cases hs
      have hnf : ∀ o ∈ s.fifo.objs, r.id ≠ o.id := fun o ho e =>
        hn ((mem_cached s r.id).2 (Or.inl (List.mem_map.2 ⟨o, ho, e.symm⟩)))
      rcases k4 with ⟨_, e1, _⟩ | ⟨_, _, e1⟩ | ⟨_, _, _, e1⟩
      · rw [e1] at ho; simp only [hitStep, if_neg (hnf o ho)]; exact hf o ho
      · rw [e1] at ho; simp only [hitStep, if_neg (hnf o ho)]; exact hf o ho
      · rw [e1] at ho
        rcases List.mem_cons.1 ho with rfl | ho
        · simp [hitStep, Obj.ofReq]
        · simp only [hitStep, if_neg (hnf o ho)]; exact hf o ho
    · cases hs; exact hf o ho

theorem reach_freq (C : MainCache M cachedM InvM zero (cs - fs)) {p : Perms} {ok : Req → Prop} (hok : Fits cs fs p ok) {s0 : State τ}
    (h0 : Inv cachedM InvM cs fs gs thr (p.ins = false) (p.ev = true) s0) (he : s0.fifo.objs = []) : ∀ (ops : List Op) (out : List Bool) (s : State τ),
    (∀ op ∈ ops, Calls p ok op) → Reaches (algo M zero) s0 ops out s →
    FreqOk s (ops.zip out) ∧ ops.length = out.length := by
  have K := contract (M := M) (zero := zero) C gs thr hok
  intro ops
  induction ops using List.reverseRecOn with
  | nil =>
    intro out s _ h
    simp only [Reaches, Algo.run] at h
    cases h
    exact ⟨by intro o ho; rw [he] at ho; simp at ho, rfl⟩
  | append_singleton ops op ih =>
    intro out s ho h
    have ho' : ∀ o ∈ ops, Calls p ok o := fun o h => ho o (by simp [h])
    obtain ⟨out1, s1, hr1, hi1⟩ := K.run ops h0 ho'
    obtain ⟨hf1, hl1⟩ := ih out1 s1 ho' hr1
    unfold Reaches at h
    rw [run_append, hr1] at h
    obtain ⟨b, s2, hst, hi2, _⟩ := K.step op (ho op (by simp)) hi1
    simp only [Algo.run, hst, Res.bind_ok] at h
    cases h
    refine ⟨?_, by simp [hl1]⟩
    rw [S3FIFO.zip_append_single _ _ _ _ hl1]
    exact step_freq C hok hi1 (ho op (by simp)) hf1 hst

/-! ### The properties, over any main cache -/

theorem noPhantom (C : MainCache M cachedM InvM zero (cs - fs)) {p : Perms} {ok : Req → Prop} (hok : Fits cs fs p ok) (hins : p.ins = false)
    {main : τ} (hm : InvM main) (hmt : cachedM main = []) (h : fs ≤ cs) :
    NoPhantom (algo M zero) (cached cachedM) (init main cs fs gs thr) (Calls p ok) := by
  refine (contract C gs thr hok).noPhantom (inv_init main hm hmt gs thr _ _ h) (by rw [cached]; show cont [] ++ cachedM main = []; rw [hmt]; rfl) ?_
  intro _ s s' b id hi he
  obtain ⟨b2, s'', k1, _, _, _, _, k3⟩ := remove_any C hi id
  rw [show (algo M zero).remove s id = remove M s id from rfl, k1] at he
  cases he
  intro hx
  have := ids_sub (k3 hins).2.subperm hx
  simp at this

/-- which missed objects are cached: those smaller than the small queue, and remembered ones as large as it -/
def takes (fs : Nat) (s : State τ) (r : Req) : Bool := decide (r.size < fs ∨ (r.size = fs ∧ r.id ∈ ghostIds s.ghost))

theorem admittedMissCached (C : MainCache M cachedM InvM zero (cs - fs)) {p : Perms} {ok : Req → Prop} (hok : Fits cs fs p ok)
    {main : τ} (hm : InvM main) (hmt : cachedM main = []) (h : fs ≤ cs) :
    AdmittedMissCached (algo M zero) (cached cachedM) (takes fs) (init main cs fs gs thr) (Calls p ok) := by
  intro ops out s ho hr r hor hn ha
  have K := contract (M := M) (zero := zero) C gs thr hok
  have hi := K.reach (inv_init main hm hmt gs thr _ _ h) ho hr
  obtain ⟨s', hs', _, hsub⟩ := K.get r hor hi
  rw [decide_eq_false hn] at hs'
  rw [if_neg hn] at hsub
  refine ⟨s', hs', ?_⟩
  obtain ⟨_, g2, g3, _⟩ := get_fifo C hok hor hi hs'
  have hin : r.id ∈ (cached cachedM s').ids := by
    have ha := of_decide_eq_true ha
    by_cases hg : r.id ∈ ghostIds s.ghost
    · exact (mem_cached s' r.id).2 (Or.inr (g2 rfl (by omega) hg))
    · rcases ha with ha | ⟨_, ha⟩
      · obtain ⟨l, l', e, _⟩ := g3 rfl ha hg
        exact (mem_cached s' r.id).2 (Or.inl (by rw [e]; simp [Obj.ofReq]))
      · exact absurd ha hg
  obtain ⟨x, hx, he⟩ := List.mem_map.1 hin
  rcases List.mem_cons.1 (hsub.subset hx) with rfl | hx'
  · exact hx
  · exact absurd (List.mem_map.2 ⟨x, hx', he⟩) hn

theorem rejectQuiet (C : MainCache M cachedM InvM zero (cs - fs)) {p : Perms} {ok : Req → Prop} (hok : Fits cs fs p ok)
    {main : τ} (hm : InvM main) (hmt : cachedM main = []) (h : fs ≤ cs)
    (hq : ∀ {m : τ} (r : Req), InvM m → r.id ∉ (cachedM m).ids → M.find m r true = .ok (false, m)) :
    RejectQuiet (algo M zero) (cached cachedM) (fun _ r => decide (r.size ≤ fs)) (fun s => (s.fifo, s.main)) (init main cs fs gs thr) (Calls p ok) := by
  intro ops out s ho hr r hor hn ha
  have K := contract (M := M) (zero := zero) C gs thr hok
  have hi := K.reach (inv_init main hm hmt gs thr _ _ h) ho hr
  obtain ⟨s', hs', _⟩ := K.get r hor hi
  rw [decide_eq_false hn] at hs'
  refine ⟨s', hs', ?_⟩
  obtain ⟨_, _, _, _, g⟩ := get_fifo C hok hor hi hs'
  have hgt : r.size > fs := by simpa using ha
  obtain ⟨e1, e2⟩ := g rfl hgt
  rw [hq r hi.main (fun hx => hn ((mem_cached s r.id).2 (Or.inr hx)))] at e2
  injection e2 with e2
  injection e2 with _ e2
  simp only [e1, ← e2]

theorem removeExact (C : MainCache M cachedM InvM zero (cs - fs)) {p : Perms} {ok : Req → Prop} (hok : Fits cs fs p ok) (hins : p.ins = false)
    {main : τ} (hm : InvM main) (hmt : cachedM main = []) (h : fs ≤ cs) (ops : List Op) (out : List Bool) (s : State τ)
    (ho : ∀ op ∈ ops, Calls p ok op) (hr : Reaches (algo M zero) (init main cs fs gs thr) ops out s) (id : ObjId) :
    ∃ s', (algo M zero).remove s id = .ok (decide (id ∈ (cached cachedM s).ids ∨ id ∈ ghostIds s.ghost), s') ∧
      (cached cachedM s').Perm ((cached cachedM s).filter (fun x => x.1 ≠ id)) := by
  have hi := (contract (M := M) (zero := zero) C gs thr hok).reach (inv_init main hm hmt gs thr _ _ h) ho hr
  obtain ⟨b, s', k1, _, _, _, _, k3⟩ := remove_any C hi id
  obtain ⟨k4, k5⟩ := k3 hins
  rw [k4] at k1
  exact ⟨s', k1, k5⟩

theorem oneQueue (C : MainCache M cachedM InvM zero (cs - fs)) {p : Perms} {ok : Req → Prop} (hok : Fits cs fs p ok) (hins : p.ins = false)
    {main : τ} (hm : InvM main) (hmt : cachedM main = []) (h : fs ≤ cs) (ops : List Op) (out : List Bool) (s : State τ)
    (ho : ∀ op ∈ ops, Calls p ok op) (hr : Reaches (algo M zero) (init main cs fs gs thr) ops out s) :
    ((cached cachedM s).ids ++ ghostIds s.ghost).Nodup := by
  have hi := (contract (M := M) (zero := zero) C gs thr hok).reach (inv_init main hm hmt gs thr _ _ h) ho hr
  rw [List.nodup_append]
  refine ⟨hi.nodup C, ghostIds_nodup hi.ghost, fun a ha b hb e => ?_⟩
  subst e
  exact hi.sep hins a hb ha

theorem hitsCounted (C : MainCache M cachedM InvM zero (cs - fs)) {p : Perms} {ok : Req → Prop} (hok : Fits cs fs p ok)
    {main : τ} (hm : InvM main) (hmt : cachedM main = []) (h : fs ≤ cs) (ops : List Op) (out : List Bool) (s : State τ)
    (ho : ∀ op ∈ ops, Calls p ok op) (hr : Reaches (algo M zero) (init main cs fs gs thr) ops out s) :
    ∀ o ∈ s.fifo.objs, o.miscFreq = (hitsSince (ops.zip out) o.id : Int) :=
  (reach_freq C hok (inv_init main hm hmt gs thr _ _ h) rfl ops out s ho hr).1

theorem evictRule (C : MainCache M cachedM InvM zero (cs - fs)) {p : Perms} {ok : Req → Prop} (hok : Fits cs fs p ok)
    {main : τ} (hm : InvM main) (hmt : cachedM main = []) (h : fs ≤ cs) (ops : List Op) (out : List Bool) (s : State τ)
    (ho : ∀ op ∈ ops, Calls p ok op) (hr : Reaches (algo M zero) (init main cs fs gs thr) ops out s)
    (hpos : 0 < bytes 0 (cached cachedM s) ∨ (p.ev = true ∧ cached cachedM s ≠ [])) (r : Req) :
    ∃ s', (algo M zero).evict s r = .ok s' ∧
      (bytes 0 (cont s.fifo.objs) = 0 → s'.fifo = s.fifo ∧ s'.ghost = s.ghost ∧ M.evict s.main r = .ok s'.main ∧
        ∃ v, (cachedM s.main).Perm (v :: cachedM s'.main)) ∧
      (0 < bytes 0 (cont s.fifo.objs) → ∃ l o, s.fifo.objs = l ++ [o] ∧ s'.fifo.objs = l ∧
        ((hitsSince (ops.zip out) o.id : Int) ≥ thr → s'.ghost = s.ghost ∧ M.get s.main o.toReq = .ok (false, s'.main)) ∧
        ((hitsSince (ops.zip out) o.id : Int) < thr → s'.main = s.main ∧ (0 < gs → o.size ≤ gs → o.id ∈ ghostIds s'.ghost))) := by
  have h0 := inv_init (cs := cs) (fs := fs) main hm hmt gs thr (p.ins = false) (p.ev = true) h
  have hi := (contract (M := M) (zero := zero) C gs thr hok).reach h0 ho hr
  have hb : Busy cachedM s := by
    rcases hpos with h | ⟨h1, h2⟩
    · rw [bytes_eq_charge] at h; exact busy_of_charge h
    · exact hi.busy h1 h2
  have hf := (reach_freq C hok h0 rfl ops out s ho hr).1
  obtain ⟨s', k1, _, _, _, _, _, k7, k8⟩ := evict_spec C hi hb r
  simp only [bytes_eq_charge]
  refine ⟨s', k1, k7, fun hp => ?_⟩
  obtain ⟨l, o, h1, h2, h3, h4⟩ := k8 hp
  have hfo := hf o (by rw [h1]; simp)
  refine ⟨l, o, h1, h2, ?_, ?_⟩
  · rw [← hfo]; exact h3
  · rw [← hfo]
    intro hlt
    obtain ⟨e1, e2⟩ := h4 hlt
    exact ⟨e1, fun hg hsz => ghostGet_in hi.ghost hg o.toReq hsz e2⟩

theorem placed (C : MainCache M cachedM InvM zero (cs - fs)) {p : Perms} {ok : Req → Prop} (hok : Fits cs fs p ok)
    {main : τ} (hm : InvM main) (hmt : cachedM main = []) (h : fs ≤ cs) (ops : List Op) (out : List Bool) (s : State τ)
    (ho : ∀ op ∈ ops, Calls p ok op) (hr : Reaches (algo M zero) (init main cs fs gs thr) ops out s) (r : Req) (hor : ok r) (s' : State τ)
    (hg : (algo M zero).get s r = .ok (false, s')) :
    (r.size ≤ fs → r.id ∈ ghostIds s.ghost → r.id ∈ (cachedM s'.main).ids) ∧
    (r.size < fs → r.id ∉ ghostIds s.ghost → ∃ l l', s'.fifo.objs.map (·.id) = r.id :: l ∧ s.fifo.objs.map (·.id) = l ++ l') ∧
    (r.size = fs → r.id ∉ ghostIds s.ghost → r.id ∉ (cached cachedM s').ids) := by
  have hi := (contract (M := M) (zero := zero) C gs thr hok).reach (inv_init main hm hmt gs thr _ _ h) ho hr
  obtain ⟨_, g2, g3, g4, _⟩ := get_fifo C hok hor hi hg
  refine ⟨g2 rfl, fun h1 h2 => ?_, g4 rfl⟩
  obtain ⟨l, l', e1, e2⟩ := g3 rfl h1 h2
  exact ⟨l.map (·.id), l'.map (·.id), by rw [e1]; rfl, by rw [e2, List.map_append]⟩

end

end QDLP
end Verif
