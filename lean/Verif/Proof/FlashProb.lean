import Verif.Proof.MainCache
import Verif.Proof.QRep
import Verif.Proof.QDLP
import Verif.Spec.Flash
import Verif.Algo.FlashProb
/-!
# flashProb meets the contract, over any disk cache
-/

namespace Verif
open Spec

namespace FlashProb
open QDLP (ids_sub)
variable {τ : Type}

/-- what is cached: RAM and disk -/
def cached (cachedD : τ → Contents) (s : State τ) : Contents := cont s.ram.objs ++ cachedD s.disk

/-- what the specification sees of a state -/
def view (s : State τ) : Flash.View τ := ⟨cont s.ram.objs, s.disk, s.picks⟩

/-- `e`: the client may call `evict` -/
structure Inv (cachedD : τ → Contents) (InvD : τ → Prop) (cs rs n : Nat) (lru : Bool) (e : Prop) (s : State τ) : Prop where
  csz : s.base.cacheSize = cs
  mdz : s.base.objMd = 0
  ram : Rep rs 0 s.ram s.ram.objs
  disk : InvD s.disk
  dis : ∀ i ∈ s.ram.objs.map (·.id), i ∉ (cachedD s.disk).ids
  cap : charge 0 (cached cachedD s) ≤ cs
  n : s.invProb = n
  lru : s.lru = lru
  strict : s.strict = false
  pos : e → ∀ o ∈ s.ram.objs, 0 < o.size

def measure (cachedD : τ → Contents) (s : State τ) : Nat := 2 * s.ram.objs.length + (cachedD s.disk).length

section
variable {D : Algo τ} {cachedD : τ → Contents} {InvD : τ → Prop} {zero : τ → ObjId → Bool} {cs rs ds n : Nat} {lru : Bool} {e : Prop} {s : State τ}

theorem inv_mk {l : List (Obj Unit)} (hcs : s.base.cacheSize = cs) (hmd : s.base.objMd = 0)
    (hf : Rep rs 0 s.ram l) (hm : InvD s.disk) (hdis : ∀ i ∈ l.map (·.id), i ∉ (cachedD s.disk).ids)
    (hcap : charge 0 (cont l ++ cachedD s.disk) ≤ cs) (hn : s.invProb = n) (hl : s.lru = lru) (hst : s.strict = false)
    (hpos : e → ∀ o ∈ l, 0 < o.size) : Inv cachedD InvD cs rs n lru e s := by
  have e1 := hf.objs
  have ec : cached cachedD s = cont l ++ cachedD s.disk := by rw [cached, e1]
  exact ⟨hcs, hmd, by rw [e1]; exact hf, hm, by rw [e1]; exact hdis, by rw [ec]; exact hcap, hn, hl, hst, by rw [e1]; exact hpos⟩

theorem inv_init (disk : τ) (hm : InvD disk) (h0 : cachedD disk = []) (adm : Adm) (n : Nat) (picks : List Nat) (e : Prop) :
    Inv cachedD InvD cs rs n lru e (init disk cs rs adm lru n picks false) := by
  refine inv_mk (s := init disk cs rs adm lru n picks false) rfl rfl (Rep.init rs 0 .none) hm (by simp) ?_ rfl rfl rfl (by simp)
  show charge 0 (cont [] ++ cachedD disk) ≤ cs
  rw [h0]; simp [charge]

theorem mem_cached (s : State τ) (i : ObjId) :
    i ∈ (cached cachedD s).ids ↔ i ∈ s.ram.objs.map (·.id) ∨ i ∈ (cachedD s.disk).ids := by
  rw [cached, Contents.ids, List.map_append, List.mem_append, ← cont_ids]

theorem Inv.occ (C : MainCache D cachedD InvD zero ds) (h : Inv cachedD InvD cs rs n lru e s) :
    (algo D).occ s = (charge 0 (cached cachedD s) : Nat) := by
  show s.ram.base.occ + D.occ s.disk = _
  rw [h.ram.occ, C.occ h.disk, cached, charge_append]; push_cast; rfl

theorem Inv.nodup (C : MainCache D cachedD InvD zero ds) (h : Inv cachedD InvD cs rs n lru e s) : (cached cachedD s).ids.Nodup := by
  have : (cached cachedD s).ids = s.ram.objs.map (·.id) ++ (cachedD s.disk).ids := by
    rw [cached, Contents.ids, List.map_append, ← cont_ids]
  rw [this, List.nodup_append]
  exact ⟨h.ram.nodup, C.nodup h.disk, fun a ha b hb e => h.dis a ha (e ▸ hb)⟩

/-- the RAM holds bytes or the disk holds objects -/
def Busy (cachedD : τ → Contents) (s : State τ) : Prop := charge 0 (cont s.ram.objs) = 0 → cachedD s.disk ≠ []

/-- asking the disk cache for a missing object -/
def write (D : Algo τ) (d : τ) (x : ObjId × Nat) (d' : τ) : Prop := ∃ next, D.get d ⟨x.1, x.2, next⟩ = .ok (false, d')

/-- an eviction by the disk cache -/
def drop (D : Algo τ) (r : Req) (d d' : τ) : Prop := D.evict d r = .ok d'

/-- One call of `evict`. -/
theorem evict_spec (C : MainCache D cachedD InvD zero ds) (hds : ds ≤ cs) (hn0 : 0 < n) (h : Inv cachedD InvD cs rs n lru e s) (hb : Busy cachedD s) (r : Req) :
    ∃ s', evict D s r = .ok s' ∧ Inv cachedD InvD cs rs n lru e s' ∧ (cached cachedD s').Subperm (cached cachedD s) ∧
      measure cachedD s' < measure cachedD s ∧ s'.base = s.base ∧ Flash.Evicts n (write D) (drop D r) (view s) (view s') ∧
      ∃ l, s.ram.objs = s'.ram.objs ++ l := by
  have hfo := h.ram.occ
  by_cases hc : charge 0 (cont s.ram.objs) = 0
  · have hocc : s.ram.base.occ = 0 := by rw [hfo, hc]; rfl
    obtain ⟨m', v, k1, k2, k3⟩ := C.evict r h.disk (hb hc)
    have hmo : D.occ s.disk ≤ s.base.cacheSize := by
      rw [C.occ h.disk, h.csz]
      have := C.cap h.disk
      omega
    have hsub : (cachedD m').Subperm (cachedD s.disk) := (List.Sublist.subperm (List.sublist_cons_self _ _)).trans k3.symm.subperm
    have hsubc : (cont s.ram.objs ++ cachedD m').Subperm (cached cachedD s) := (List.subperm_append_left _).2 hsub
    refine ⟨{ s with disk := m' }, ?_, ?_, hsubc, ?_, rfl, ?_, [], by simp⟩
    · rw [evict, if_pos hocc, if_pos hmo, k1]; rfl
    · refine inv_mk (s := { s with disk := m' }) h.csz h.mdz h.ram k2 ?_ ?_ h.n h.lru h.strict h.pos
      · intro i hi hi'
        exact h.dis i hi (ids_sub hsub hi')
      · exact Nat.le_trans (charge_subperm hsubc) h.cap
    · have := k3.length_eq
      simp only [measure, List.length_cons] at this ⊢
      omega
    · exact Flash.Evicts.disk (by rw [bytes_eq_charge]; exact hc) k1
  · have hpos : 0 < charge 0 (cont s.ram.objs) := by omega
    obtain ⟨l, o, hl⟩ := exists_last_of_charge hpos
    have hocc : ¬ s.ram.base.occ = 0 := by rw [hfo]; omega
    have ht := h.ram.tailObj hl
    obtain ⟨f', hf1, hf2⟩ := h.ram.remove_hit (id := o.id) (by rw [hl]; simp)
    have hnd : ((l ++ [o]).map (·.id)).Nodup := by rw [← hl]; exact h.ram.nodup
    rw [hl, delL_last hnd] at hf2
    have hsz : o.size + 0 < u32 := h.ram.small o (by simp [hl])
    have hmodo : o.size % u32 = o.size := Nat.mod_eq_of_lt (by omega)
    have hnm : o.id ∉ (cachedD s.disk).ids := h.dis o.id (by simp [hl])
    have hnl : o.id ∉ l.map (·.id) := by
      have := hnd
      rw [List.map_append, List.nodup_append] at this
      intro hx
      exact this.2.2 o.id hx o.id (by simp) rfl
    have hposl : e → ∀ x ∈ l, 0 < x.size := fun he x hx => h.pos he x (by simp [hl, hx])
    have hdisl : ∀ i ∈ l.map (·.id), i ∉ (cachedD s.disk).ids := fun i hi => h.dis i (by rw [hl, List.map_append]; exact List.mem_append_left _ hi)
    have ecs : cached cachedD s = cont l ++ [(o.id, o.size)] ++ cachedD s.disk := by rw [cached, hl, cont_append]; rfl
    have hmid : (cont l ++ (o.id, o.size) :: cachedD s.disk).Perm (cached cachedD s) := by rw [ecs]; simp
    have hn1 : ¬ s.invProb = 0 := by rw [h.n]; omega
    have hvs : view s = ⟨cont l ++ [(o.id, o.size)], s.disk, s.picks⟩ := by rw [view, hl, cont_append]; rfl
    have hbp : 0 < bytes 0 (cont l ++ [(o.id, o.size)]) := by
      rw [bytes_eq_charge]; rw [hl, cont_append] at hpos; exact hpos
    by_cases hth : s.picks.headD 0 % n = 0
    · have hth' : s.picks.headD 0 % s.invProb = 0 := by rw [h.n]; exact hth
      have main : ∀ m', D.get s.disk o.toReq = .ok (false, m') → InvD m' → (cachedD m').Subperm ((o.id, o.size) :: cachedD s.disk) →
          ∃ s', evict D s r = .ok s' ∧ Inv cachedD InvD cs rs n lru e s' ∧ (cached cachedD s').Subperm (cached cachedD s) ∧
          measure cachedD s' < measure cachedD s ∧ s'.base = s.base ∧ Flash.Evicts n (write D) (drop D r) (view s) (view s') ∧
          ∃ l, s.ram.objs = s'.ram.objs ++ l := by
        intro m' g1 g2 g3
        have hsubc : (cont l ++ cachedD m').Subperm (cached cachedD s) :=
          ((List.subperm_append_left _).2 g3).trans hmid.subperm
        have ec : cached cachedD { s with ram := f', disk := m', picks := s.picks.tail } = cont l ++ cachedD m' := by
          unfold cached; simp only; rw [hf2.objs]
        refine ⟨{ s with ram := f', disk := m', picks := s.picks.tail }, ?_, ?_, by rw [ec]; exact hsubc, ?_, rfl, ?_, [o], ?_⟩
        · rw [evict, if_neg hocc, ht, Res.bind_ok, hf1, Res.bind_ok, if_neg hn1, if_pos hth', h.strict]
          simp only [Bool.false_eq_true, if_false, g1, Res.bind_ok]
        · refine inv_mk (s := { s with ram := f', disk := m', picks := s.picks.tail }) h.csz h.mdz hf2 g2 ?_ ?_ h.n h.lru h.strict hposl
          · intro i hi hi'
            rcases List.mem_cons.1 (ids_sub g3 hi') with e | hi'
            · rw [show i = o.id from e] at hi; exact hnl hi
            · exact hdisl i hi hi'
          · exact Nat.le_trans (charge_subperm hsubc) h.cap
        · have := g3.length_le
          have e1 : ({ s with ram := f', disk := m', picks := s.picks.tail } : State τ).ram.objs = l := hf2.objs
          simp only [measure, e1, hl, List.length_append, List.length_cons, List.length_nil] at this ⊢
          omega
        · rw [hvs]
          have : view ({ s with ram := f', disk := m', picks := s.picks.tail } : State τ) = ⟨cont l, m', s.picks.tail⟩ := by
            unfold view; simp only; rw [hf2.objs]
          rw [this]
          exact Flash.Evicts.written hbp hth ⟨o.miscNext, g1⟩
        · show s.ram.objs = f'.objs ++ [o]
          rw [hf2.objs]; exact hl
      rcases C.getMiss o.toReq h.disk hnm with ⟨_, m', g1, g2, g3⟩ | ⟨_, m', vs, kept, g1, g2, g3, g4, _⟩
      · exact main m' g1 g2 (g3.subperm.trans (List.Sublist.subperm (List.sublist_cons_self _ _)))
      · refine main m' g1 g2 ?_
        have e1 : (o.toReq.id, o.toReq.size % u32) = (o.id, o.size) := by simp only [Obj.toReq, hmodo]
        rw [e1] at g4
        refine g4.subperm.trans ((List.subperm_cons _).2 ?_)
        exact (List.Sublist.subperm (List.sublist_append_right vs _)).trans g3.symm.subperm
    · have hth' : ¬ s.picks.headD 0 % s.invProb = 0 := by rw [h.n]; exact hth
      have hsubc : (cont l ++ cachedD s.disk).Subperm (cached cachedD s) :=
        ((List.subperm_append_left _).2 (List.Sublist.subperm (List.sublist_cons_self _ _))).trans hmid.subperm
      have ec : cached cachedD { s with ram := f', picks := s.picks.tail } = cont l ++ cachedD s.disk := by
        unfold cached; simp only; rw [hf2.objs]
      refine ⟨{ s with ram := f', picks := s.picks.tail }, ?_, ?_, by rw [ec]; exact hsubc, ?_, rfl, ?_, [o], ?_⟩
      · rw [evict, if_neg hocc, ht, Res.bind_ok, hf1, Res.bind_ok, if_neg hn1, if_neg hth']
      · refine inv_mk (s := { s with ram := f', picks := s.picks.tail }) h.csz h.mdz hf2 h.disk hdisl ?_ h.n h.lru h.strict hposl
        exact Nat.le_trans (charge_subperm hsubc) h.cap
      · have e1 : ({ s with ram := f', picks := s.picks.tail } : State τ).ram.objs = l := hf2.objs
        simp only [measure, e1, hl, List.length_append, List.length_cons, List.length_nil]
        omega
      · rw [hvs]
        have : view ({ s with ram := f', picks := s.picks.tail } : State τ) = ⟨cont l, s.disk, s.picks.tail⟩ := by
          unfold view; simp only; rw [hf2.objs]
        rw [this]
        exact Flash.Evicts.lost hbp hth
      · show s.ram.objs = f'.objs ++ [o]
        rw [hf2.objs]; exact hl

/-! ### find -/

theorem ramFind_miss (h : Inv cachedD InvD cs rs n lru e s) {r : Req} {u : Bool} (hm : r.id ∉ s.ram.objs.map (·.id)) :
    ramFind s r u = .ok (none, s.ram) := by
  unfold ramFind
  have h1 := findBase_miss (u := u) (h.ram.lookup_none.2 hm)
  split
  · simp [QState.findLRU, h1]
  · rw [h.ram.findFIFO_miss hm]

theorem ramFind_false (h : Inv cachedD InvD cs rs n lru e s) {r : Req} (hm : r.id ∈ s.ram.objs.map (·.id)) :
    ∃ o, ramFind s r false = .ok (some o, s.ram) := by
  obtain ⟨o, h1, _, _⟩ := h.ram.lookup_some hm
  refine ⟨o, ?_⟩
  unfold ramFind
  split
  · simp [QState.findLRU, findBase_false, h1]
  · simp [QState.findFIFO, findBase_false, h1]

theorem filter_cons_unique {l : List (Obj Unit)} (hn : (l.map (·.id)).Nodup) {o : Obj Unit} (ho : o ∈ l) :
    (cont l).filter (fun x => x.1 = o.id) = [(o.id, o.size)] := by
  induction l with
  | nil => simp at ho
  | cons a l ih =>
    simp only [List.map_cons, List.nodup_cons, List.mem_map, not_exists, not_and] at hn
    rcases List.mem_cons.1 ho with rfl | ho
    · rw [cont_cons, List.filter_cons_of_pos (by simp)]
      congr 1
      rw [List.filter_eq_nil_iff]
      intro x hx
      obtain ⟨y, hy, rfl⟩ := List.mem_map.1 hx
      simpa using hn.1 y hy
    · have hne : a.id ≠ o.id := fun e => hn.1 o ho e.symm
      rw [cont_cons, List.filter_cons_of_neg (by simpa using hne), ih hn.2 ho]

theorem ramFind_hit (h : Inv cachedD InvD cs rs n lru e s) {r : Req} (hm : r.id ∈ s.ram.objs.map (·.id)) :
    ∃ o m l, ramFind s r true = .ok (some o, m) ∧ Rep rs 0 m l ∧ cont l = Flash.hit lru r.id (cont s.ram.objs) ∧
      (cont l).Perm (cont s.ram.objs) := by
  obtain ⟨o, h1, h2, h3⟩ := h.ram.lookup_some hm
  have hrep := h.ram.modify r.id (touch r) (fun _ => rfl) (fun _ => rfl)
  have hcont : cont (modL r.id (touch r) s.ram.objs) = cont s.ram.objs := modL_cont _ (touch r) (fun _ => rfl) (fun _ => rfl) _
  by_cases hl : s.lru = true
  · have ho : touch r o ∈ modL r.id (touch r) s.ram.objs := List.mem_map.2 ⟨o, h2, by simp [h3]⟩
    obtain ⟨q', k1, k2⟩ := hrep.toHead ho (id := r.id) h3
    have hlru : lru = true := by rw [← h.lru]; exact hl
    have ec : cont (touch r o :: delL r.id (modL r.id (touch r) s.ram.objs)) = Flash.hit lru r.id (cont s.ram.objs) := by
      rw [cont_cons, delL_cont, hcont, Flash.hit, if_pos hlru, ← h3, filter_cons_unique h.ram.nodup h2]; rfl
    refine ⟨touch r o, _, _, ?_, k2, ec, ?_⟩
    · simp only [ramFind, hl, if_true, QState.findLRU, findBase_hit h1]
      have k1' : qMoveToHead s.ram.q r.id = .ok q' := k1
      simp only [k1', Res.bind_ok]
      rfl
    · have hp := Rep.charge_del hrep.nodup ho (show (touch r o).id = r.id from h3)
      have := (hp.map (fun o => (o.id, o.size))).symm
      rw [← hcont]
      exact this
  · have hl' : s.lru = false := by simpa using hl
    have hlru : lru = false := by rw [← h.lru]; exact hl'
    refine ⟨touch r o, _, _, ?_, hrep, ?_, by rw [hcont]⟩
    · simp only [ramFind, hl', Bool.false_eq_true, if_false, QState.findFIFO, findBase_hit h1]; rfl
    · rw [hcont, Flash.hit, hlru]; simp

theorem find_false (C : MainCache D cachedD InvD zero ds) (h : Inv cachedD InvD cs rs n lru e s) (r : Req) :
    find D s r false = .ok (decide (r.id ∈ (cached cachedD s).ids), s) := by
  by_cases hm : r.id ∈ s.ram.objs.map (·.id)
  · obtain ⟨o, h1⟩ := ramFind_false h hm
    rw [decide_eq_true ((mem_cached s r.id).2 (Or.inl hm)), find, h1]; rfl
  · have hc : r.id ∈ (cached cachedD s).ids ↔ r.id ∈ (cachedD s.disk).ids := by rw [mem_cached]; simp [hm]
    rw [find, ramFind_miss h hm]
    simp [C.findF r h.disk, hc]

theorem findRam (h : Inv cachedD InvD cs rs n lru e s) {r : Req} (hm : r.id ∈ s.ram.objs.map (·.id)) :
    ∃ s', find D s r true = .ok (true, s') ∧ Inv cachedD InvD cs rs n lru e s' ∧ (cached cachedD s').Perm (cached cachedD s) ∧
      cont s'.ram.objs = Flash.hit lru r.id (cont s.ram.objs) ∧ s'.disk = s.disk ∧ s'.picks = s.picks ∧ s'.base = s.base := by
  obtain ⟨o, m, l, h1, h2, h3, h4⟩ := ramFind_hit h hm
  have e1 : ({ s with ram := m } : State τ).ram.objs = l := h2.objs
  refine ⟨{ s with ram := m }, by rw [find, h1]; rfl, ?_, ?_, by rw [e1, h3], rfl, rfl, rfl⟩
  · refine inv_mk (s := { s with ram := m }) h.csz h.mdz h2 h.disk ?_ ?_ h.n h.lru h.strict ?_
    · intro i hi
      refine h.dis i ?_
      rw [← cont_ids] at hi ⊢
      exact (h4.map Prod.fst).subset hi
    · rw [charge_append, charge_perm h4, ← charge_append]; exact h.cap
    · intro he o ho
      have : (o.id, o.size) ∈ cont s.ram.objs := h4.subset (List.mem_map.2 ⟨o, ho, rfl⟩)
      obtain ⟨y, hy, hye⟩ := List.mem_map.1 this
      have := h.pos he y hy
      have e2 : y.size = o.size := (Prod.mk.inj hye).2
      omega
  · rw [cached, e1]; exact h4.append_right _

theorem findDisk (C : MainCache D cachedD InvD zero ds) (h : Inv cachedD InvD cs rs n lru e s) {r : Req} (hm : r.id ∉ s.ram.objs.map (·.id)) :
    ∃ s', find D s r true = .ok (decide (r.id ∈ (cachedD s.disk).ids), s') ∧ Inv cachedD InvD cs rs n lru e s' ∧
      (cached cachedD s').Perm (cached cachedD s) ∧ s'.ram = s.ram ∧ D.find s.disk r true = .ok (decide (r.id ∈ (cachedD s.disk).ids), s'.disk) ∧
      (cachedD s'.disk).Perm (cachedD s.disk) ∧ s'.picks = s.picks ∧ s'.base = s.base := by
  obtain ⟨m', hm1, hm2, hm3⟩ := C.findT r h.disk
  have hpc : (cont s.ram.objs ++ cachedD m').Perm (cached cachedD s) := hm3.append_left _
  refine ⟨{ s with disk := m' }, ?_, ?_, hpc, rfl, hm1, hm3, rfl, rfl⟩
  · rw [find, ramFind_miss h hm]; simp [hm1]
  · refine inv_mk (s := { s with disk := m' }) h.csz h.mdz h.ram hm2 ?_ ?_ h.n h.lru h.strict h.pos
    · intro i hi hi'
      exact h.dis i hi ((hm3.map Prod.fst).subset hi')
    · rw [charge_perm hpc]; exact h.cap

theorem mustEvict_iff (C : MainCache D cachedD InvD zero ds) (h : Inv cachedD InvD cs rs n lru e s) (r : Req) :
    (algo D).mustEvict s r = true ↔ charge 0 (cached cachedD s) + r.size > cs := by
  simp only [Algo.mustEvict, decide_eq_true_eq, h.occ C]
  have e1 : ((algo D).cacheSize s : Int) = cs := by show (s.base.cacheSize : Int) = cs; rw [h.csz]
  have e2 : ((algo D).md s : Int) = 0 := by show (s.base.objMd : Int) = 0; rw [h.mdz]; rfl
  rw [e1, e2]
  omega

theorem insert_spec (C : MainCache D cachedD InvD zero ds) (h : Inv cachedD InvD cs rs n lru e s) (r : Req)
    (hn : r.id ∉ (cached cachedD s).ids) (hroom : (algo D).mustEvict s r = false) (hz : e → 0 < r.size % u32) :
    ∃ s', insert s r = .ok s' ∧ Inv cachedD InvD cs rs n lru e s' ∧ cached cachedD s' = (r.id, r.size % u32) :: cached cachedD s ∧
      s'.ram.objs = Obj.ofReq () r :: s.ram.objs ∧ s'.disk = s.disk ∧ s'.picks = s.picks := by
  rw [mem_cached, not_or] at hn
  have hroom' : charge 0 (cached cachedD s) + r.size ≤ cs := by
    have := (mustEvict_iff C h r).not
    simp only [hroom, Bool.false_eq_true, not_false_eq_true, true_iff] at this
    omega
  have hmod : r.size % u32 ≤ r.size := Nat.mod_le _ _
  have hcons : charge 0 ((r.id, r.size % u32) :: cached cachedD s) ≤ cs := by simp only [charge]; omega
  obtain ⟨f', k1, k2⟩ := h.ram.insert () r hn.1 (sizeOk_zero r)
  have ec : cached cachedD { s with ram := f' } = (r.id, r.size % u32) :: cached cachedD s := by
    unfold cached; simp only; rw [k2.objs]; rfl
  refine ⟨{ s with ram := f' }, by simp [insert, k1], ?_, ec, k2.objs, rfl, rfl⟩
  refine inv_mk (s := { s with ram := f' }) h.csz h.mdz k2 h.disk ?_ hcons h.n h.lru h.strict ?_
  · intro i hi
    simp only [List.map_cons, List.mem_cons] at hi
    rcases hi with hi | hi
    · rw [show i = r.id from hi]; exact hn.2
    · exact h.dis i hi
  · intro he o ho
    rcases List.mem_cons.1 ho with rfl | ho
    · exact hz he
    · exact h.pos he o ho

theorem remove_spec (C : MainCache D cachedD InvD zero ds) (h : Inv cachedD InvD cs rs n lru e s) (id : ObjId) :
    ∃ s', remove D s id = .ok (decide (id ∈ (cached cachedD s).ids), s') ∧ Inv cachedD InvD cs rs n lru e s' ∧
      (cached cachedD s').Perm ((cached cachedD s).filter (fun x => x.1 ≠ id)) := by
  have hids := mem_cached (cachedD := cachedD) s
  by_cases hf : id ∈ s.ram.objs.map (·.id)
  · obtain ⟨f', k1, k2⟩ := h.ram.remove_hit hf
    have hnm := h.dis id hf
    have ec : cont (delL id s.ram.objs) ++ cachedD s.disk = (cached cachedD s).filter (fun x => x.1 ≠ id) := by
      rw [cached, List.filter_append, delL_cont]
      congr 1
      symm
      exact filter_ids_eq hnm
    have ec' : cached cachedD { s with ram := f' } = (cached cachedD s).filter (fun x => x.1 ≠ id) := by
      rw [← ec]; unfold cached; simp only; rw [k2.objs]
    refine ⟨{ s with ram := f' }, by rw [decide_eq_true ((hids id).2 (Or.inl hf)), remove, k1]; rfl, ?_, by rw [ec']⟩
    refine inv_mk (s := { s with ram := f' }) h.csz h.mdz k2 h.disk ?_ ?_ h.n h.lru h.strict ?_
    · intro i hi
      rw [delL_ids] at hi
      exact h.dis i (List.mem_of_mem_filter hi)
    · rw [ec]
      exact Nat.le_trans (charge_sublist List.filter_sublist) h.cap
    · intro he o ho
      exact h.pos he o (List.mem_of_mem_filter ho)
  · have k1 := h.ram.remove_miss hf
    obtain ⟨m', m1, m2, m3⟩ := C.remove id h.disk
    have hperm : (cont s.ram.objs ++ cachedD m').Perm ((cached cachedD s).filter (fun x => x.1 ≠ id)) := by
      rw [cached, List.filter_append, filter_ids_eq (by rw [cont_ids]; exact hf)]
      exact m3.append_left _
    have hsub : (cont s.ram.objs ++ cachedD m').Subperm (cached cachedD s) := hperm.subperm.trans List.filter_sublist.subperm
    have hb : decide (id ∈ (cachedD s.disk).ids) = decide (id ∈ (cached cachedD s).ids) := by
      apply decide_eq_decide.2
      rw [hids]; simp [hf]
    refine ⟨{ s with disk := m' }, by rw [remove, k1]; simp [m1, hb], ?_, hperm⟩
    refine inv_mk (s := { s with disk := m' }) h.csz h.mdz h.ram m2 ?_ (Nat.le_trans (charge_subperm hsub) h.cap) h.n h.lru h.strict h.pos
    intro i hi hi'
    have hsd : (cachedD m').Subperm (cachedD s.disk) := m3.subperm.trans List.filter_sublist.subperm
    exact h.dis i hi (ids_sub hsd hi')

/-- What is asked of the requests: a client that calls `evict` has no empty objects. -/
def Fits (p : Perms) (ok : Req → Prop) : Prop := ∀ r, ok r → p.ev = true → 0 < r.size % u32

theorem busy_of_charge (h : 0 < charge 0 (cached cachedD s)) : Busy cachedD s := by
  intro h0 hm
  rw [cached, charge_append, h0, hm] at h
  simp [charge] at h

theorem Inv.busy (h : Inv cachedD InvD cs rs n lru e s) (he : e) (hne : cached cachedD s ≠ []) : Busy cachedD s := by
  intro h0 hm
  apply hne
  have : s.ram.objs = [] := by
    rcases hl : s.ram.objs with _ | ⟨o, l⟩
    · rfl
    · have hp := h.pos he o (by simp [hl])
      rw [hl, cont_cons, charge] at h0
      simp only at h0
      omega
  rw [cached, this, hm]; rfl

theorem canInsert_eq (s : State τ) (r : Req) :
    (algo D).canInsert s r = (admitsBase s.base r, { s with base := { s.base with adm := (s.base.adm.admit r).2 } }) := by
  show ((s.base.canInsertDefault r).1, { s with base := (s.base.canInsertDefault r).2 }) = _
  rw [canInsertDefault_eq]

theorem frame (h : Inv cachedD InvD cs rs n lru e s) (k : Nat) (a : Adm) :
    Inv cachedD InvD cs rs n lru e { s with base := { s.base with nReq := k, adm := a } } :=
  ⟨h.csz, h.mdz, h.ram, h.disk, h.dis, h.cap, h.n, h.lru, h.strict, h.pos⟩

theorem bump_inv (h : Inv cachedD InvD cs rs n lru e s) : Inv cachedD InvD cs rs n lru e ((algo D).bump s) :=
  ⟨h.csz, h.mdz, h.ram, h.disk, h.dis, h.cap, h.n, h.lru, h.strict, h.pos⟩

/-- flashProb meets the contract. -/
theorem contract (C : MainCache D cachedD InvD zero ds) (hds : ds ≤ cs) (hn0 : 0 < n) (rs : Nat) (lru : Bool) {p : Perms} {ok : Req → Prop} (hok : Fits p ok) :
    Contract (algo D) (cached cachedD) (Inv cachedD InvD cs rs n lru (p.ev = true)) (fun _ r => r.size ≤ cs)
      (measure cachedD) cs 0 p ok where
  csz := fun h => h.csz
  mdz := fun h => h.mdz
  nodup := fun h => h.nodup C
  occ := fun h => h.occ C
  nObj := fun {s} h => by
    show s.ram.base.nObj + D.nObj s.disk = _
    rw [h.ram.nObj, C.nObj h.disk, cached, List.length_append, cont_length]; push_cast; rfl
  cap := fun h => by rw [h.occ C]; have := h.cap; omega
  bump := fun h => ⟨bump_inv h, rfl⟩
  findF := fun _ _ r h => find_false C h r
  findHit := fun {s} r h hin _ => by
    by_cases hf : r.id ∈ s.ram.objs.map (·.id)
    · obtain ⟨s', h1, h2, h3, _⟩ := findRam (D := D) h hf
      exact ⟨s', h1, h2, h3.subperm⟩
    · have hm : r.id ∈ (cachedD s.disk).ids := ((mem_cached s r.id).1 hin).resolve_left hf
      obtain ⟨s', h1, h2, h3, _⟩ := findDisk C h hf
      exact ⟨s', by rw [show (algo D).find s r true = find D s r true from rfl, h1]; simp [hm], h2, h3.subperm⟩
  findMiss := fun {s} r h hin _ => by
    rw [mem_cached, not_or] at hin
    obtain ⟨s', h1, h2, h3, _⟩ := findDisk C h hin.1
    have hcan := canInsert_eq (D := D) s' r
    refine ⟨s', by rw [show (algo D).find s r true = find D s r true from rfl, h1]; simp [hin.2], h2, h3, by rw [hcan]; exact frame h2 _ _, by rw [hcan]; exact h3, ?_⟩
    intro hc _
    rw [hcan] at hc
    have hc' : admitsBase s'.base r = true := hc
    simp only [admitsBase, Bool.and_eq_true, decide_eq_true_eq, h2.csz, h2.mdz] at hc'
    omega
  fuel := fun {s} h => by
    show measure cachedD s ≤ 2 * s.ram.base.tbl.length + (D.nObj s.disk).toNat
    rw [measure, h.ram.perm.length_eq, C.nObj h.disk]
    simp
  evictLoop := fun {s} r h _ hr hn hme => by
    have hb : Busy cachedD s := by
      apply busy_of_charge
      rw [mustEvict_iff C h] at hme
      have : r.size ≤ cs := hr
      omega
    obtain ⟨s', k1, k2, k3, k4, _⟩ := evict_spec C hds hn0 h hb r
    exact ⟨s', k1, k2, hr, k3, k4⟩
  insert := fun {s} r h hor hr hn hme => by
    obtain ⟨s', k1, k2, k4, _⟩ := insert_spec C h r hn hme (hok r hor)
    exact ⟨s', k1, k2, by rw [k4]⟩
  userInsert := fun hpi {s} r h hor hn hme => by
    obtain ⟨s', k1, k2, k4, _⟩ := insert_spec C h r hn hme (hok r hor)
    exact ⟨s', k1, k2, by rw [k4]⟩
  remove := fun _ {s} id h => by
    obtain ⟨s', k1, k2, k3⟩ := remove_spec C h id
    exact ⟨_, s', k1, k2, k3.subperm.trans List.filter_sublist.subperm⟩
  evict := fun hpe {s} r h hne => by
    obtain ⟨s', k1, k2, k3, _⟩ := evict_spec C hds hn0 h (h.busy hpe hne) r
    exact ⟨s', k1, k2, k3⟩

/-- The bytes in RAM and on the disk. -/
def used (cachedD : τ → Contents) (v : Flash.View τ) : Nat := bytes 0 (v.ram ++ cachedD v.disk)

theorem used_view (s : State τ) : used cachedD (view s) = charge 0 (cached cachedD s) := by rw [used, bytes_eq_charge]; rfl

/-- The eviction loop. -/
theorem loop_spec (C : MainCache D cachedD InvD zero ds) (hds : ds ≤ cs) (hn0 : 0 < n) (r : Req) (hr : r.size ≤ cs) :
    ∀ k (s : State τ), Inv cachedD InvD cs rs n lru e s → measure cachedD s ≤ k →
      ∃ s', (algo D).evictLoop r k s = .ok s' ∧ Inv cachedD InvD cs rs n lru e s' ∧ (algo D).mustEvict s' r = false ∧
        (cached cachedD s').Subperm (cached cachedD s) ∧
        Flash.Drains n (write D) (drop D r) (used cachedD) r.size cs (view s) (view s') := by
  intro k
  induction k with
  | zero =>
    intro s h hm
    cases hme : (algo D).mustEvict s r with
    | false =>
      refine ⟨s, by simp [Algo.evictLoop, hme], h, hme, List.Subperm.refl _, Flash.Drains.done ?_⟩
      have := (mustEvict_iff C h r).not
      simp only [hme, Bool.false_eq_true, not_false_eq_true, true_iff] at this
      rw [used_view]; omega
    | true =>
      have h1 := (mustEvict_iff C h r).1 hme
      obtain ⟨s', _, _, _, h4, _⟩ := evict_spec C hds hn0 h (busy_of_charge (by omega)) r
      omega
  | succ k ih =>
    intro s h hm
    cases hme : (algo D).mustEvict s r with
    | false =>
      refine ⟨s, by simp [Algo.evictLoop, hme], h, hme, List.Subperm.refl _, Flash.Drains.done ?_⟩
      have := (mustEvict_iff C h r).not
      simp only [hme, Bool.false_eq_true, not_false_eq_true, true_iff] at this
      rw [used_view]; omega
    | true =>
      have h1 := (mustEvict_iff C h r).1 hme
      obtain ⟨s1, k1, k2, k3, k4, _, k6, _⟩ := evict_spec C hds hn0 h (busy_of_charge (by omega)) r
      obtain ⟨s', l1, l2, l3, l4, l5⟩ := ih s1 k2 (by omega)
      refine ⟨s', ?_, l2, l3, l4.trans k3, Flash.Drains.more (by rw [used_view]; omega) k6 l5⟩
      simp only [Algo.evictLoop, hme, if_true]
      rw [show (algo D).evict s r = evict D s r from rfl, k1, Res.bind_ok, l1]

/-- A whole `get`. -/
theorem get_spec (C : MainCache D cachedD InvD zero ds) (hds : ds ≤ cs) (hn0 : 0 < n) (h : Inv cachedD InvD cs rs n lru e s) (r : Req)
    (hz : e → 0 < r.size % u32) :
    (r.id ∈ (cont s.ram.objs).ids → ∃ s', (algo D).get s r = .ok (true, s') ∧
      cont s'.ram.objs = Flash.hit lru r.id (cont s.ram.objs) ∧ s'.disk = s.disk ∧ s'.picks = s.picks) ∧
    (r.id ∈ (cachedD s.disk).ids → ∃ s', (algo D).get s r = .ok (true, s') ∧ s'.ram = s.ram ∧ D.find s.disk r true = .ok (true, s'.disk) ∧ s'.picks = s.picks) ∧
    (r.id ∉ (cached cachedD s).ids → ∃ d0, D.find s.disk r true = .ok (false, d0) ∧
      (admitsBase s.base r = false → ∃ s', (algo D).get s r = .ok (false, s') ∧ s'.ram = s.ram ∧ s'.disk = d0 ∧ s'.picks = s.picks) ∧
      (admitsBase s.base r = true → ∃ s' ram, (algo D).get s r = .ok (false, s') ∧ (view s').ram = (r.id, r.size % u32) :: ram ∧
        Flash.Drains n (write D) (drop D r) (used cachedD) r.size cs ⟨(view s).ram, d0, (view s).rand⟩ ⟨ram, (view s').disk, (view s').rand⟩)) := by
  have hb := bump_inv (D := D) h
  refine ⟨fun hin => ?_, fun hin => ?_, fun hin => ?_⟩
  · rw [cont_ids] at hin
    obtain ⟨s', h1, _, _, h4, h5, h6, _⟩ := findRam (D := D) hb hin
    exact ⟨s', get_hit h1, h4, h5, h6⟩
  · have hm : r.id ∉ s.ram.objs.map (·.id) := fun hx => h.dis _ hx hin
    obtain ⟨s', h1, _, _, h4, h5, _, h6, _⟩ := findDisk C hb hm
    have e1 : decide (r.id ∈ (cachedD ((algo D).bump s).disk).ids) = true := decide_eq_true hin
    rw [e1] at h1 h5
    exact ⟨s', get_hit h1, h4, h5, h6⟩
  · have hin' := hin
    rw [mem_cached, not_or] at hin
    obtain ⟨s1, h1, h2, h3, h4, h5, h6, h7, h8⟩ := findDisk C hb hin.1
    have e1 : decide (r.id ∈ (cachedD ((algo D).bump s).disk).ids) = false := decide_eq_false hin.2
    rw [e1] at h1 h5
    have ha : admitsBase s1.base r = admitsBase s.base r := by rw [h8]; rfl
    have hcan := canInsert_eq (D := D) s1 r
    rw [ha] at hcan
    refine ⟨s1.disk, h5, fun had => ?_, fun had => ?_⟩
    · rw [had] at hcan
      exact ⟨_, get_reject h1 hcan, h4, rfl, h7⟩
    · rw [had] at hcan
      simp only [admitsBase, Bool.and_eq_true, decide_eq_true_eq, h.csz, h.mdz] at had
      have hi2 := frame h2 s1.base.nReq (s1.base.adm.admit r).2
      obtain ⟨s3, l1, l2, l3, l4, l5⟩ := loop_spec C hds hn0 r (by omega) _ _ hi2 ((contract C hds hn0 rs lru (p := { ev := false }) (ok := fun _ => True) (by intro _ _ h; simp at h)).fuel
        ⟨hi2.csz, hi2.mdz, hi2.ram, hi2.disk, hi2.dis, hi2.cap, hi2.n, hi2.lru, hi2.strict, by simp⟩)
      have hn3 : r.id ∉ (cached cachedD s3).ids := notMem_ids_of_subperm l4 (notMem_ids_of_subperm h3.subperm hin')
      obtain ⟨s4, k1, k2, k3, k4, k5, k6⟩ := insert_spec C l2 r hn3 l3 hz
      refine ⟨s4, cont s3.ram.objs, get_accept h1 hcan l1 k1, ?_, ?_⟩
      · rw [view, k4]; rfl
      · have e2 : view ({ s1 with base := { s1.base with nReq := s1.base.nReq, adm := (s1.base.adm.admit r).2 } } : State τ) = ⟨(view s).ram, s1.disk, (view s).rand⟩ := by
          have h4' : s1.ram = s.ram := h4
          have h7' : s1.picks = s.picks := h7
          simp only [view, h4', h7']
        rw [e2] at l5
        have e3 : view s3 = ⟨cont s3.ram.objs, (view s4).disk, (view s4).rand⟩ := by simp only [view, k5, k6]
        rw [← e3]
        exact l5

end
end FlashProb
end Verif
