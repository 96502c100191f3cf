import Verif.Proof.QRep
import Verif.Proof.FlashProb
import Verif.Proof.CBF
import Verif.Spec.TinyLFU
import Verif.Algo.WTinyLFU
/-!
# W-TinyLFU meets the contract, over any main cache that behaves
-/

namespace Verif
open Spec

namespace WTinyLFU
open QDLP (ids_sub)
variable {τ : Type}

/-- What W-TinyLFU needs from its main cache: `ms` is its size, `lim` the size of the largest object it admits, `rem` says whether `remove` works.  The main cache may
exceed its size, but not the size `cs` of the whole cache. -/
structure Main (M : Algo τ) (peek : τ → Option ObjId) (cachedM : τ → Contents) (InvM : τ → Prop) (cs ms lim : Nat) (rem : Prop) : Prop where
  lim_le : lim ≤ ms
  csz : ∀ {s}, InvM s → M.cacheSize s = ms
  nodup : ∀ {s}, InvM s → (cachedM s).ids.Nodup
  occ : ∀ {s}, InvM s → M.occ s = (charge 0 (cachedM s) : Nat)
  nObj : ∀ {s}, InvM s → M.nObj s = ((cachedM s).length : Nat)
  small : ∀ {s}, InvM s → ∀ x ∈ cachedM s, x.2 ≤ lim
  findF : ∀ {s} (r), InvM s → M.find s r false = .ok (decide (r.id ∈ (cachedM s).ids), s)
  findMiss : ∀ {s} (r), InvM s → r.id ∉ (cachedM s).ids → M.find s r true = .ok (false, s)
  findHit : ∀ {s} (r), InvM s → r.id ∈ (cachedM s).ids → ∃ s', M.find s r true = .ok (true, s') ∧ InvM s' ∧ (cachedM s').Subperm (cachedM s)
  canInsert : ∀ {s} (r), InvM s → M.canInsert s r = (decide (r.size ≤ lim), s)
  insert : ∀ {s} (r), InvM s → r.id ∉ (cachedM s).ids → r.size ≤ lim → r.size < u32 → charge 0 (cachedM s) + r.size ≤ cs →
    ∃ s' kept, M.insert s r = .ok s' ∧ InvM s' ∧ kept.Subperm (cachedM s) ∧ (cachedM s').Perm ((r.id, r.size) :: kept) ∧
      (0 < charge 0 (cachedM s) → 0 < charge 0 (cachedM s'))
  evict : ∀ {s} (r), InvM s → 0 < charge 0 (cachedM s) →
    ∃ s' v, peek s = some v.1 ∧ M.evict s r = .ok s' ∧ InvM s' ∧ (cachedM s).Perm (v :: cachedM s')
  remove : rem → ∀ {s} (id), InvM s → ∃ s', M.remove s id = .ok (decide (id ∈ (cachedM s).ids), s') ∧ InvM s' ∧
    (cachedM s').Perm ((cachedM s).filter (fun x => x.1 ≠ id))

/-- what is cached: window and main cache -/
def cached (cachedM : τ → Contents) (s : State τ) : Contents := cont s.win.objs ++ cachedM s.main

/-- what the specification sees of a state -/
def view (s : State τ) : TinyLFU.View τ CBF.Sketch := ⟨cont s.win.objs, s.main, s.sk⟩

/-- the parts -/
def parts (H : CBF.Hashes ObjId) (M : Algo τ) (peek : τ → Option ObjId) (cachedM : τ → Contents) (r : Req) : TinyLFU.Parts τ CBF.Sketch where
  used := fun m => bytes 0 (cachedM m)
  enters := fun m x m' => ∃ next, M.insert m ⟨x.1, x.2, next⟩ = .ok m'
  next := fun m y => peek m = some y
  drops := fun m m' => M.evict m r = .ok m'
  freq := fun k y f => CBF.estimate H k y = .ok (f, k)
  count := fun k y k' => ∃ v, CBF.add H k y = .ok (v, k')

/-- `e`: the client may call `evict` -/
structure Inv (cachedM : τ → Contents) (InvM : τ → Prop) (cs ws lim mx : Nat) (e : Prop) (s : State τ) : Prop where
  csz : s.base.cacheSize = cs
  mdz : s.base.objMd = 0
  mxz : s.maxReq = mx
  win : Rep ws 0 s.win s.win.objs
  main : InvM s.main
  dis : ∀ i ∈ s.win.objs.map (·.id), i ∉ (cachedM s.main).ids
  cap : charge 0 (cached cachedM s) ≤ cs
  small : ∀ o ∈ s.win.objs, o.size ≤ lim
  sk : CBF.Shape s.sk
  pos : e → ∀ x ∈ cached cachedM s, 0 < x.2

def measure (cachedM : τ → Contents) (s : State τ) : Nat := (cached cachedM s).length

section
variable {H : CBF.Hashes ObjId} {M : Algo τ} {peek : τ → Option ObjId} {cachedM : τ → Contents} {InvM : τ → Prop} {cs ws ms lim mx : Nat} {rem e : Prop} {s : State τ}

theorem inv_mk {l : List (Obj Unit)} (hcs : s.base.cacheSize = cs) (hmd : s.base.objMd = 0) (hmx : s.maxReq = mx)
    (hf : Rep ws 0 s.win l) (hm : InvM s.main) (hdis : ∀ i ∈ l.map (·.id), i ∉ (cachedM s.main).ids)
    (hcap : charge 0 (cont l ++ cachedM s.main) ≤ cs) (hs : ∀ o ∈ l, o.size ≤ lim) (hk : CBF.Shape s.sk)
    (hpos : e → ∀ x ∈ cont l ++ cachedM s.main, 0 < x.2) : Inv cachedM InvM cs ws lim mx e s := by
  have e1 := hf.objs
  have ec : cached cachedM s = cont l ++ cachedM s.main := by rw [cached, e1]
  exact ⟨hcs, hmd, hmx, by rw [e1]; exact hf, hm, by rw [e1]; exact hdis, by rw [ec]; exact hcap, by rw [e1]; exact hs, hk, by rw [ec]; exact hpos⟩

theorem inv_init (main : τ) (hm : InvM main) (h0 : cachedM main = []) (cs ms : Nat) (adm : Adm) {num : Nat} (hn : 0 < num) (hs : Nat) (e : Prop) :
    Inv cachedM InvM cs (cs - ms) lim (32 * ms) e (start main cs ms adm num hs) := by
  refine inv_mk (s := start main cs ms adm num hs) rfl rfl rfl (Rep.init _ 0 .none) hm (by simp) ?_ (by simp) (CBF.shape_init hn) ?_
  · show charge 0 (cont [] ++ cachedM main) ≤ cs
    rw [h0]; simp [charge]
  · intro _ x hx
    have : x ∈ cont ([] : List (Obj Unit)) ++ cachedM main := hx
    rw [h0] at this; simp at this

theorem mem_cached (s : State τ) (i : ObjId) :
    i ∈ (cached cachedM s).ids ↔ i ∈ s.win.objs.map (·.id) ∨ i ∈ (cachedM s.main).ids := by
  rw [cached, Contents.ids, List.map_append, List.mem_append, ← cont_ids]

theorem Inv.occ (C : Main M peek cachedM InvM cs ms lim rem) (h : Inv cachedM InvM cs ws lim mx e s) :
    (algo H M peek).occ s = (charge 0 (cached cachedM s) : Nat) := by
  show s.win.base.occ + M.occ s.main = _
  rw [h.win.occ, C.occ h.main, cached, charge_append]; push_cast; rfl

theorem Inv.nodup (C : Main M peek cachedM InvM cs ms lim rem) (h : Inv cachedM InvM cs ws lim mx e s) : (cached cachedM s).ids.Nodup := by
  have : (cached cachedM s).ids = s.win.objs.map (·.id) ++ (cachedM s.main).ids := by
    rw [cached, Contents.ids, List.map_append, ← cont_ids]
  rw [this, List.nodup_append]
  exact ⟨h.win.nodup, C.nodup h.main, fun a ha b hb e => h.dis a ha (e ▸ hb)⟩

theorem charge_pos_of_mem {c : Contents} {x : ObjId × Nat} (hx : x ∈ c) (hp : 0 < x.2) : 0 < charge 0 c := by
  induction c with
  | nil => simp at hx
  | cons y c ih =>
    rcases List.mem_cons.1 hx with rfl | hx
    · simp only [charge]; omega
    · have := ih hx; simp only [charge]; omega

/-- Taking the candidate out of the window, when it goes to the main cache. -/
theorem enter (C : Main M peek cachedM InvM cs ms lim rem) (h : Inv cachedM InvM cs ws lim mx e s) {l : List (Obj Unit)} {o : Obj Unit} (hl : s.win.objs = l ++ [o])
    {m : τ} (hm : InvM m) (hsub : (cachedM m).Subperm (cachedM s.main)) :
    ∃ m' w' sk', M.insert m o.toReq = .ok m' ∧ s.win.remove o.id = .ok (true, w') ∧
      (∃ v, CBF.add H s.sk o.id = .ok (v, sk')) ∧ Inv cachedM InvM cs ws lim mx e { s with win := w', main := m', sk := sk' } ∧ w'.objs = l ∧
      (cont l ++ cachedM m').Subperm (cont l ++ (o.id, o.size) :: cachedM m) ∧
      (0 < charge 0 (cachedM m) → 0 < charge 0 (cachedM m')) ∧ (0 < o.size → 0 < charge 0 (cachedM m')) := by
  obtain ⟨f', hf1, hf2⟩ := h.win.remove_hit (id := o.id) (by rw [hl]; simp)
  have hnd : ((l ++ [o]).map (·.id)).Nodup := by rw [← hl]; exact h.win.nodup
  rw [hl, delL_last hnd] at hf2
  have hsz : o.size + 0 < u32 := h.win.small o (by simp [hl])
  have hnm : o.id ∉ (cachedM m).ids := fun hx => h.dis o.id (by simp [hl]) (ids_sub hsub hx)
  have hnl : o.id ∉ l.map (·.id) := by
    have := hnd
    rw [List.map_append, List.nodup_append] at this
    intro hx
    exact this.2.2 o.id hx o.id (by simp) rfl
  have hroom : charge 0 (cachedM m) + o.size ≤ cs := by
    have h1 := h.cap
    have h2 := charge_subperm (md := 0) hsub
    rw [cached, charge_append, hl, cont_append, charge_append] at h1
    simp only [cont_cons, cont_nil, charge] at h1
    omega
  obtain ⟨m', kept, g1, g2, g3, g4, g5⟩ := C.insert o.toReq hm hnm (h.small o (by simp [hl])) hsz hroom
  obtain ⟨v, sk', k1, k2⟩ := h.sk.add (H := H) o.id
  have g4' : (cachedM m').Perm ((o.id, o.size) :: kept) := g4
  have hs1 : (cachedM m').Subperm ((o.id, o.size) :: cachedM m) := g4'.subperm.trans ((List.subperm_cons _).2 g3)
  have hs2 : (cont l ++ cachedM m').Subperm (cont l ++ (o.id, o.size) :: cachedM m) := (List.subperm_append_left _).2 hs1
  have ecs : cached cachedM s = cont l ++ [(o.id, o.size)] ++ cachedM s.main := by rw [cached, hl, cont_append]; rfl
  have hs3 : (cont l ++ (o.id, o.size) :: cachedM m).Subperm (cached cachedM s) := by
    rw [ecs, List.append_assoc]
    exact (List.subperm_append_left _).2 ((List.subperm_cons _).2 hsub)
  refine ⟨m', f', sk', g1, hf1, ⟨v, k1⟩, ?_, hf2.objs, hs2, g5, fun hp => ?_⟩
  · refine inv_mk (s := { s with win := f', main := m', sk := sk' }) h.csz h.mdz h.mxz hf2 g2 ?_ ?_ (fun x hx => h.small x (by simp [hl, hx])) k2 ?_
    · intro i hi hi'
      rcases List.mem_cons.1 (ids_sub hs1 hi') with e | hi'
      · rw [show i = o.id from e] at hi; exact hnl hi
      · exact h.dis i (by rw [hl, List.map_append]; exact List.mem_append_left _ hi) (ids_sub hsub hi')
    · exact Nat.le_trans (charge_subperm (hs2.trans hs3)) h.cap
    · intro he x hx
      exact h.pos he x ((hs2.trans hs3).subset hx)
  · exact charge_pos_of_mem (x := (o.id, o.size)) (g4'.symm.subset (by simp)) hp

/-- The loop of `evict`. -/
theorem rounds_spec (C : Main M peek cachedM InvM cs ms lim rem) (r : Req) : ∀ n {s : State τ}, Inv cachedM InvM cs ws lim mx e s → 0 < charge 0 (cached cachedM s) →
    s.win.objs.length < n →
    ∃ s', evictRounds H M peek r n s = .ok s' ∧ Inv cachedM InvM cs ws lim mx e s' ∧ (cached cachedM s').Subperm (cached cachedM s) ∧
      measure cachedM s' < measure cachedM s ∧ s'.base = s.base ∧ s'.counter = s.counter ∧ s'.maxReq = s.maxReq ∧
      TinyLFU.Evicts ms (parts H M peek cachedM r) (view s) (view s') ∧ ∃ l, s.win.objs = s'.win.objs ++ l := by
  intro n
  induction n with
  | zero => intro s _ _ hlt; omega
  | succ n ih =>
    intro s h hch hlt
    have hfo := h.win.occ
    by_cases hc : charge 0 (cont s.win.objs) = 0
    · have hocc : ¬ s.win.base.occ > 0 := by rw [hfo, hc]; simp
      have hmc : 0 < charge 0 (cachedM s.main) := by
        rw [cached, charge_append] at hch; omega
      obtain ⟨m', v, _, k1, k2, k3⟩ := C.evict r h.main hmc
      have hsub : (cachedM m').Subperm (cachedM s.main) := (List.Sublist.subperm (List.sublist_cons_self _ _)).trans k3.symm.subperm
      have hsubc : (cont s.win.objs ++ cachedM m').Subperm (cached cachedM s) := (List.subperm_append_left _).2 hsub
      refine ⟨{ s with main := m' }, ?_, ?_, hsubc, ?_, rfl, rfl, rfl, ?_, [], by simp⟩
      · rw [evictRounds, if_neg hocc, k1]; rfl
      · refine inv_mk (s := { s with main := m' }) h.csz h.mdz h.mxz h.win k2 (fun i hi hi' => h.dis i hi (ids_sub hsub hi'))
          (Nat.le_trans (charge_subperm hsubc) h.cap) h.small h.sk (fun he x hx => h.pos he x (hsubc.subset hx))
      · have := k3.length_eq
        simp only [measure, cached, List.length_append, List.length_cons] at this ⊢
        omega
      · exact TinyLFU.Evicts.main (by rw [bytes_eq_charge]; exact hc) k1
    · have hpos : 0 < charge 0 (cont s.win.objs) := by omega
      obtain ⟨l, o, hl⟩ := exists_last_of_charge hpos
      have hocc : s.win.base.occ > 0 := by rw [hfo]; omega
      have ht := h.win.tailObj hl
      have hbp : 0 < bytes 0 (cont l ++ [(o.id, o.size)]) := by
        rw [bytes_eq_charge]; rw [hl, cont_append] at hpos; exact hpos
      have hvs : view s = ⟨cont l ++ [(o.id, o.size)], s.main, s.sk⟩ := by rw [view, hl, cont_append]; rfl
      have ecs : cached cachedM s = cont l ++ [(o.id, o.size)] ++ cachedM s.main := by rw [cached, hl, cont_append]; rfl
      have hmid : (cont l ++ (o.id, o.size) :: cachedM s.main).Perm (cached cachedM s) := by rw [ecs]; simp
      have hcond : (M.occ s.main + o.toReq.size + s.base.objMd ≤ M.cacheSize s.main) ↔ bytes 0 (cachedM s.main) + o.size ≤ ms := by
        rw [C.occ h.main, C.csz h.main, h.mdz, bytes_eq_charge]
        show ((charge 0 (cachedM s.main) : Nat) : Int) + (o.size : Int) + ((0 : Nat) : Int) ≤ (ms : Int) ↔ _
        omega
      have hlen : s.win.objs.length = l.length + 1 := by rw [hl]; simp
      by_cases hroom : bytes 0 (cachedM s.main) + o.size ≤ ms
      · obtain ⟨m', w', sk', g1, g2, ⟨v, g3⟩, g4, g5, g6, g7, g8⟩ := enter (H := H) C h hl h.main (List.Subperm.refl _)
        have hch' : 0 < charge 0 (cached cachedM { s with win := w', main := m', sk := sk' }) := by
          unfold cached
          simp only
          rw [g5, charge_append]
          rw [ecs, charge_append, charge_append] at hch
          simp only [charge] at hch
          by_cases ho : 0 < o.size
          · have := g8 ho; omega
          · by_cases hm0 : 0 < charge 0 (cachedM s.main)
            · have := g7 hm0; omega
            · omega
        obtain ⟨s', f1, f2, f3, f4, f5, f6, f7, f8, l', f9⟩ := ih g4 hch' (by show w'.objs.length < n; rw [g5]; omega)
        have ec' : cached cachedM { s with win := w', main := m', sk := sk' } = cont l ++ cachedM m' := by unfold cached; simp only; rw [g5]
        rw [ec'] at f3
        refine ⟨s', ?_, f2, f3.trans (g6.trans hmid.subperm), ?_, f5, f6, f7, ?_, l' ++ [o], ?_⟩
        · rw [evictRounds, if_pos hocc, ht, Res.bind_ok, if_pos (hcond.2 hroom), g1, Res.bind_ok, g2, Res.bind_ok, note, g3]
          simpa using f1
        · have h1 := g6.length_le
          have h2 := hmid.length_eq
          simp only [measure, ec'] at f4 ⊢
          omega
        · rw [hvs]
          have e2 : view ({ s with win := w', main := m', sk := sk' } : State τ) = ⟨cont l, m', sk'⟩ := by unfold view; simp only; rw [g5]
          rw [e2] at f8
          exact TinyLFU.Evicts.moved hbp hroom ⟨o.miscNext, g1⟩ ⟨v, g3⟩ f8
        · have f9' : w'.objs = s'.win.objs ++ l' := f9
          rw [g5] at f9'
          rw [hl, f9', List.append_assoc]
      · have hroom' : ¬ (M.occ s.main + o.toReq.size + s.base.objMd ≤ M.cacheSize s.main) := fun hx => hroom (hcond.1 hx)
        have hol : o.size ≤ lim := h.small o (by simp [hl])
        have hlm := C.lim_le
        rw [bytes_eq_charge] at hroom
        have hmc : 0 < charge 0 (cachedM s.main) := by omega
        obtain ⟨m1, y, p1, p2, p3, p4⟩ := C.evict r h.main hmc
        obtain ⟨a, ha⟩ := h.sk.estimate (H := H) o.id
        obtain ⟨b, hb⟩ := h.sk.estimate (H := H) y.1
        have hfull : ms < bytes 0 (cachedM s.main) + o.size := by rw [bytes_eq_charge]; omega
        by_cases hab : a > b
        · have hsub1 : (cachedM m1).Subperm (cachedM s.main) := (List.Sublist.subperm (List.sublist_cons_self _ _)).trans p4.symm.subperm
          obtain ⟨m', w', sk', g1, g2, ⟨v, g3⟩, g4, g5, g6, g7, g8⟩ := enter (H := H) C h hl p3 hsub1
          have hych := charge_perm (md := 0) p4
          simp only [charge] at hych
          have hyl : y.2 ≤ lim := C.small h.main y (p4.symm.subset (by simp))
          have hch' : 0 < charge 0 (cached cachedM { s with win := w', main := m', sk := sk' }) := by
            unfold cached
            simp only
            rw [g5, charge_append]
            by_cases ho : 0 < o.size
            · have := g8 ho; omega
            · have := g7 (by omega); omega
          obtain ⟨s', f1, f2, f3, f4, f5, f6, f7, f8, l', f9⟩ := ih g4 hch' (by show w'.objs.length < n; rw [g5]; omega)
          have ec' : cached cachedM { s with win := w', main := m', sk := sk' } = cont l ++ cachedM m' := by unfold cached; simp only; rw [g5]
          have hmid1 : (cont l ++ (o.id, o.size) :: cachedM m1).Subperm (cached cachedM s) :=
            ((List.subperm_append_left _).2 ((List.subperm_cons _).2 hsub1)).trans hmid.subperm
          rw [ec'] at f3
          refine ⟨s', ?_, f2, f3.trans (g6.trans hmid1), ?_, f5, f6, f7, ?_, l' ++ [o], ?_⟩
          · rw [evictRounds, if_pos hocc, ht, Res.bind_ok, if_neg hroom', p1]
            simp only [ha, hb, Res.bind_ok]
            rw [if_pos hab, p2, Res.bind_ok, g2, Res.bind_ok, g1, Res.bind_ok, note, g3]
            simpa using f1
          · have h1 := g6.length_le
            have h2 := hmid1.length_le
            simp only [measure, ec'] at f4 ⊢
            omega
          · rw [hvs]
            have e2 : view ({ s with win := w', main := m', sk := sk' } : State τ) = ⟨cont l, m', sk'⟩ := by unfold view; simp only; rw [g5]
            rw [e2] at f8
            exact TinyLFU.Evicts.won hbp hfull p1 ha hb hab p2 ⟨o.miscNext, g1⟩ ⟨v, g3⟩ f8
          · have f9' : w'.objs = s'.win.objs ++ l' := f9
            rw [g5] at f9'
            rw [hl, f9', List.append_assoc]
        · obtain ⟨w', g1, g2⟩ := h.win.evictTail hl
          obtain ⟨v, sk', k1, k2⟩ := h.sk.add (H := H) o.id
          have hsubc : (cont l ++ cachedM s.main).Subperm (cached cachedM s) :=
            ((List.subperm_append_left _).2 (List.Sublist.subperm (List.sublist_cons_self _ _))).trans hmid.subperm
          have ec' : cached cachedM { s with win := w', sk := sk' } = cont l ++ cachedM s.main := by unfold cached; simp only; rw [g2.objs]
          refine ⟨{ s with win := w', sk := sk' }, ?_, ?_, by rw [ec']; exact hsubc, ?_, rfl, rfl, rfl, ?_, [o], ?_⟩
          · rw [evictRounds, if_pos hocc, ht, Res.bind_ok, if_neg hroom', p1]
            simp only [ha, hb, Res.bind_ok]
            rw [if_neg hab, g1, Res.bind_ok, note, k1]; rfl
          · refine inv_mk (s := { s with win := w', sk := sk' }) h.csz h.mdz h.mxz g2 h.main ?_ (Nat.le_trans (charge_subperm hsubc) h.cap)
              (fun x hx => h.small x (by simp [hl, hx])) k2 (fun he x hx => h.pos he x (hsubc.subset hx))
            intro i hi
            exact h.dis i (by rw [hl, List.map_append]; exact List.mem_append_left _ hi)
          · have h2 := hmid.length_eq
            simp only [measure, ec', List.length_append, List.length_cons] at h2 ⊢
            omega
          · rw [hvs]
            have e2 : view ({ s with win := w', sk := sk' } : State τ) = ⟨cont l, s.main, sk'⟩ := by unfold view; simp only; rw [g2.objs]
            rw [e2]
            exact TinyLFU.Evicts.lost hbp hfull p1 ha hb (by omega) ⟨v, k1⟩
          · show s.win.objs = w'.objs ++ [o]
            rw [g2.objs]; exact hl

/-- One call of `evict`. -/
theorem evict_spec (C : Main M peek cachedM InvM cs ms lim rem) (h : Inv cachedM InvM cs ws lim mx e s) (hch : 0 < charge 0 (cached cachedM s)) (r : Req) :
    ∃ s', evict H M peek s r = .ok s' ∧ Inv cachedM InvM cs ws lim mx e s' ∧ (cached cachedM s').Subperm (cached cachedM s) ∧
      measure cachedM s' < measure cachedM s ∧ s'.base = s.base ∧ s'.counter = s.counter ∧ s'.maxReq = s.maxReq ∧
      TinyLFU.Evicts ms (parts H M peek cachedM r) (view s) (view s') ∧ ∃ l, s.win.objs = s'.win.objs ++ l :=
  rounds_spec C r _ h hch (by rw [h.win.perm.length_eq]; omega)

/-! ### find -/

theorem winFind_miss (h : Inv cachedM InvM cs ws lim mx e s) {r : Req} {u : Bool} (hm : r.id ∉ s.win.objs.map (·.id)) :
    s.win.findLRU r u = .ok (none, s.win) := by
  simp [QState.findLRU, findBase_miss (u := u) (h.win.lookup_none.2 hm)]

theorem winFind_false (h : Inv cachedM InvM cs ws lim mx e s) {r : Req} (hm : r.id ∈ s.win.objs.map (·.id)) :
    ∃ o, s.win.findLRU r false = .ok (some o, s.win) := by
  obtain ⟨o, h1, _, _⟩ := h.win.lookup_some hm
  exact ⟨o, by simp [QState.findLRU, findBase_false, h1]⟩

theorem winFind_hit (h : Inv cachedM InvM cs ws lim mx e s) {r : Req} (hm : r.id ∈ s.win.objs.map (·.id)) :
    ∃ o m l, s.win.findLRU r true = .ok (some o, m) ∧ Rep ws 0 m l ∧ cont l = TinyLFU.touch r.id (cont s.win.objs) ∧
      (cont l).Perm (cont s.win.objs) := by
  obtain ⟨o, h1, h2, h3⟩ := h.win.lookup_some hm
  have hrep := h.win.modify r.id (touch r) (fun _ => rfl) (fun _ => rfl)
  have hcont : cont (modL r.id (touch r) s.win.objs) = cont s.win.objs := modL_cont _ (touch r) (fun _ => rfl) (fun _ => rfl) _
  have ho : touch r o ∈ modL r.id (touch r) s.win.objs := List.mem_map.2 ⟨o, h2, by simp [h3]⟩
  obtain ⟨q', k1, k2⟩ := hrep.toHead ho (id := r.id) h3
  have ec : cont (touch r o :: delL r.id (modL r.id (touch r) s.win.objs)) = TinyLFU.touch r.id (cont s.win.objs) := by
    rw [cont_cons, delL_cont, hcont, TinyLFU.touch, ← h3, FlashProb.filter_cons_unique h.win.nodup h2]; rfl
  refine ⟨touch r o, _, _, ?_, k2, ec, ?_⟩
  · simp only [QState.findLRU, findBase_hit h1]
    have k1' : qMoveToHead s.win.q r.id = .ok q' := k1
    simp only [k1', Res.bind_ok]
    rfl
  · have hp := Rep.charge_del hrep.nodup ho (show (touch r o).id = r.id from h3)
    have := (hp.map (fun o => (o.id, o.size))).symm
    rw [← hcont]
    exact this

theorem find_false (C : Main M peek cachedM InvM cs ms lim rem) (h : Inv cachedM InvM cs ws lim mx e s) (r : Req) :
    find H M s r false = .ok (decide (r.id ∈ (cached cachedM s).ids), s) := by
  have hF := C.findF r h.main
  by_cases hm : r.id ∈ s.win.objs.map (·.id)
  · obtain ⟨o, h1⟩ := winFind_false h hm
    rw [decide_eq_true ((mem_cached s r.id).2 (Or.inl hm)), find, h1]
    simp [hF]
  · have hc : r.id ∈ (cached cachedM s).ids ↔ r.id ∈ (cachedM s.main).ids := by rw [mem_cached]; simp [hm]
    rw [find, winFind_miss h hm]
    simp [hF, hc]

/-- A hit in the window. -/
theorem findWin (C : Main M peek cachedM InvM cs ms lim rem) (h : Inv cachedM InvM cs ws lim mx e s) {r : Req} (hm : r.id ∈ s.win.objs.map (·.id)) :
    ∃ s', find H M s r true = .ok (true, s') ∧ Inv cachedM InvM cs ws lim mx e s' ∧ (cached cachedM s').Perm (cached cachedM s) ∧
      cont s'.win.objs = TinyLFU.touch r.id (cont s.win.objs) ∧ s'.main = s.main ∧ s'.sk = s.sk ∧ s'.counter = s.counter ∧ s'.base = s.base := by
  obtain ⟨o, m, l, h1, h2, h3, h4⟩ := winFind_hit h hm
  have e1 : ({ s with win := m } : State τ).win.objs = l := h2.objs
  have hM := C.findMiss r h.main (h.dis _ hm)
  have hp : (cont l ++ cachedM s.main).Perm (cached cachedM s) := h4.append_right _
  refine ⟨{ s with win := m }, by rw [find, h1, Res.bind_ok, hM]; rfl, ?_, ?_, by rw [e1, h3], rfl, rfl, rfl, rfl⟩
  · refine inv_mk (s := { s with win := m }) h.csz h.mdz h.mxz h2 h.main ?_ (by rw [charge_perm hp]; exact h.cap) ?_ h.sk (fun he x hx => h.pos he x (hp.subset hx))
    · intro i hi
      refine h.dis i ?_
      rw [← cont_ids] at hi ⊢
      exact (h4.map Prod.fst).subset hi
    · intro o ho
      have : (o.id, o.size) ∈ cont s.win.objs := h4.subset (List.mem_map.2 ⟨o, ho, rfl⟩)
      obtain ⟨y, hy, hye⟩ := List.mem_map.1 this
      have := h.small y hy
      have e2 : y.size = o.size := (Prod.mk.inj hye).2
      omega
  · rw [cached, e1]; exact hp

/-- The sketch and the counter of hits in the main cache after such a hit. -/
def Counts (H : CBF.Hashes ObjId) (id : ObjId) (s s' : State τ) : Prop :=
  ∃ v k, CBF.add H s.sk id = .ok (v, k) ∧
    ((s.counter + 1 < s.maxReq ∧ s'.sk = k ∧ s'.counter = s.counter + 1) ∨ (s.maxReq ≤ s.counter + 1 ∧ s'.sk = (CBF.decay k).2 ∧ s'.counter = 0))

/-- A hit in the main cache. -/
theorem findMain (C : Main M peek cachedM InvM cs ms lim rem) (h : Inv cachedM InvM cs ws lim mx e s) {r : Req} (hm : r.id ∈ (cachedM s.main).ids) :
    ∃ s', find H M s r true = .ok (true, s') ∧ Inv cachedM InvM cs ws lim mx e s' ∧ (cached cachedM s').Subperm (cached cachedM s) ∧
      s'.win = s.win ∧ M.find s.main r true = .ok (true, s'.main) ∧ Counts H r.id s s' ∧ s'.base = s.base ∧ s'.maxReq = s.maxReq := by
  have hw : r.id ∉ s.win.objs.map (·.id) := fun hx => h.dis _ hx hm
  obtain ⟨m', m1, m2, m3⟩ := C.findHit r h.main hm
  obtain ⟨v, k, k1, k2⟩ := h.sk.add (H := H) r.id
  have hsub : (cont s.win.objs ++ cachedM m').Subperm (cached cachedM s) := (List.subperm_append_left _).2 m3
  have hinv : ∀ (sk : CBF.Sketch) (c : Nat), CBF.Shape sk → Inv cachedM InvM cs ws lim mx e { s with main := m', sk := sk, counter := c } := fun sk c hk =>
    inv_mk (s := { s with main := m', sk := sk, counter := c }) h.csz h.mdz h.mxz h.win m2 (fun i hi hi' => h.dis i hi (ids_sub m3 hi'))
      (Nat.le_trans (charge_subperm hsub) h.cap) h.small hk (fun he x hx => h.pos he x (hsub.subset hx))
  by_cases hc : s.counter + 1 ≥ s.maxReq
  · refine ⟨{ s with main := m', sk := (CBF.decay k).2, counter := 0 }, ?_, hinv _ _ k2.decay, hsub, rfl, m1, ⟨v, k, k1, Or.inr ⟨hc, rfl, rfl⟩⟩, rfl, rfl⟩
    rw [find, winFind_miss h hw, Res.bind_ok, m1, Res.bind_ok]
    simp only [Bool.and_self, if_true, noteHit, note, k1, Res.bind_ok]
    rw [if_pos hc]; simp
  · refine ⟨{ s with main := m', sk := k, counter := s.counter + 1 }, ?_, hinv _ _ k2, hsub, rfl, m1, ⟨v, k, k1, Or.inl ⟨by omega, rfl, rfl⟩⟩, rfl, rfl⟩
    rw [find, winFind_miss h hw, Res.bind_ok, m1, Res.bind_ok]
    simp only [Bool.and_self, if_true, noteHit, note, k1, Res.bind_ok]
    rw [if_neg hc]; simp

theorem find_miss (C : Main M peek cachedM InvM cs ms lim rem) (h : Inv cachedM InvM cs ws lim mx e s) {r : Req} (hm : r.id ∉ (cached cachedM s).ids) :
    find H M s r true = .ok (false, s) := by
  rw [mem_cached, not_or] at hm
  rw [find, winFind_miss h hm.1, Res.bind_ok, C.findMiss r h.main hm.2]; rfl

/-! ### insert, remove, can_insert -/

theorem mustEvict_iff (C : Main M peek cachedM InvM cs ms lim rem) (h : Inv cachedM InvM cs ws lim mx e s) (r : Req) :
    (algo H M peek).mustEvict s r = true ↔ charge 0 (cached cachedM s) + r.size > cs := by
  simp only [Algo.mustEvict, decide_eq_true_eq, h.occ (H := H) C]
  have e1 : ((algo H M peek).cacheSize s : Int) = cs := by show (s.base.cacheSize : Int) = cs; rw [h.csz]
  have e2 : ((algo H M peek).md s : Int) = 0 := by show (s.base.objMd : Int) = 0; rw [h.mdz]; rfl
  rw [e1, e2]
  omega

theorem insert_spec (C : Main M peek cachedM InvM cs ms lim rem) (h : Inv cachedM InvM cs ws lim mx e s) (r : Req)
    (hn : r.id ∉ (cached cachedM s).ids) (hroom : (algo H M peek).mustEvict s r = false) (hle : r.size ≤ lim) (hz : e → 0 < r.size % u32) :
    ∃ s', insert H s r = .ok s' ∧ Inv cachedM InvM cs ws lim mx e s' ∧ cached cachedM s' = (r.id, r.size % u32) :: cached cachedM s ∧
      cont s'.win.objs = (r.id, r.size % u32) :: cont s.win.objs ∧ s'.main = s.main ∧ (∃ v, CBF.add H s.sk r.id = .ok (v, s'.sk)) ∧ s'.counter = s.counter := by
  rw [mem_cached, not_or] at hn
  have hroom' : charge 0 (cached cachedM s) + r.size ≤ cs := by
    have := (mustEvict_iff (H := H) C h r).not
    simp only [hroom, Bool.false_eq_true, not_false_eq_true, true_iff] at this
    omega
  have hmod : r.size % u32 ≤ r.size := Nat.mod_le _ _
  have hcons : charge 0 ((r.id, r.size % u32) :: cached cachedM s) ≤ cs := by simp only [charge]; omega
  obtain ⟨f', k1, k2⟩ := h.win.insert () r hn.1 (sizeOk_zero r)
  obtain ⟨v, sk', g1, g2⟩ := h.sk.add (H := H) r.id
  have ec : cached cachedM { s with win := f', sk := sk' } = (r.id, r.size % u32) :: cached cachedM s := by
    unfold cached; simp only; rw [k2.objs]; rfl
  refine ⟨{ s with win := f', sk := sk' }, by rw [insert, k1, Res.bind_ok, note, g1]; rfl, ?_, ec, ?_, rfl, ⟨v, g1⟩, rfl⟩
  · refine inv_mk (s := { s with win := f', sk := sk' }) h.csz h.mdz h.mxz k2 h.main ?_ hcons ?_ g2 ?_
    · intro i hi
      simp only [List.map_cons, List.mem_cons] at hi
      rcases hi with hi | hi
      · rw [show i = r.id from hi]; exact hn.2
      · exact h.dis i hi
    · intro o ho
      rcases List.mem_cons.1 ho with rfl | ho
      · show r.size % u32 ≤ lim; omega
      · exact h.small o ho
    · intro he x hx
      rcases List.mem_cons.1 (show x ∈ (r.id, r.size % u32) :: cached cachedM s from hx) with rfl | hx
      · exact hz he
      · exact h.pos he x hx
  · show cont f'.objs = _
    rw [k2.objs]; rfl

theorem remove_spec (C : Main M peek cachedM InvM cs ms lim rem) (hrem : rem) (h : Inv cachedM InvM cs ws lim mx e s) (id : ObjId) :
    ∃ s', remove M s id = .ok (decide (id ∈ (cached cachedM s).ids), s') ∧ Inv cachedM InvM cs ws lim mx e s' ∧
      (cached cachedM s').Perm ((cached cachedM s).filter (fun x => x.1 ≠ id)) ∧ s'.sk = s.sk ∧ s'.counter = s.counter := by
  have hids := mem_cached (cachedM := cachedM) s
  by_cases hf : id ∈ s.win.objs.map (·.id)
  · obtain ⟨f', k1, k2⟩ := h.win.remove_hit hf
    have hnm := h.dis id hf
    have ec : cont (delL id s.win.objs) ++ cachedM s.main = (cached cachedM s).filter (fun x => x.1 ≠ id) := by
      rw [cached, List.filter_append, delL_cont]
      congr 1
      symm
      exact filter_ids_eq hnm
    have ec' : cached cachedM { s with win := f' } = (cached cachedM s).filter (fun x => x.1 ≠ id) := by
      rw [← ec]; unfold cached; simp only; rw [k2.objs]
    refine ⟨{ s with win := f' }, by rw [decide_eq_true ((hids id).2 (Or.inl hf)), remove, k1]; rfl, ?_, by rw [ec'], rfl, rfl⟩
    refine inv_mk (s := { s with win := f' }) h.csz h.mdz h.mxz k2 h.main ?_ ?_ ?_ h.sk ?_
    · intro i hi
      rw [delL_ids] at hi
      exact h.dis i (List.mem_of_mem_filter hi)
    · rw [ec]
      exact Nat.le_trans (charge_sublist List.filter_sublist) h.cap
    · intro o ho
      exact h.small o (List.mem_of_mem_filter ho)
    · intro he x hx
      rw [ec] at hx
      exact h.pos he x (List.mem_of_mem_filter hx)
  · have k1 := h.win.remove_miss hf
    obtain ⟨m', m1, m2, m3⟩ := C.remove hrem id h.main
    have hperm : (cont s.win.objs ++ cachedM m').Perm ((cached cachedM s).filter (fun x => x.1 ≠ id)) := by
      rw [cached, List.filter_append, filter_ids_eq (by rw [cont_ids]; exact hf)]
      exact m3.append_left _
    have hsub : (cont s.win.objs ++ cachedM m').Subperm (cached cachedM s) := hperm.subperm.trans List.filter_sublist.subperm
    have hb : decide (id ∈ (cachedM s.main).ids) = decide (id ∈ (cached cachedM s).ids) := by
      apply decide_eq_decide.2
      rw [hids]; simp [hf]
    refine ⟨{ s with main := m' }, by rw [remove, k1]; simp [m1, hb], ?_, hperm, rfl, rfl⟩
    refine inv_mk (s := { s with main := m' }) h.csz h.mdz h.mxz h.win m2 ?_ (Nat.le_trans (charge_subperm hsub) h.cap) h.small h.sk
      (fun he x hx => h.pos he x (hsub.subset hx))
    intro i hi hi'
    have hsd : (cachedM m').Subperm (cachedM s.main) := m3.subperm.trans List.filter_sublist.subperm
    exact h.dis i hi (ids_sub hsd hi')

/-- Admission: the default conditions, and the object fits into the window and is admitted by the main cache. -/
def admits (ws lim : Nat) (s : State τ) (r : Req) : Bool := admitsBase s.base r && decide (r.size ≤ ws) && decide (r.size ≤ lim)

theorem canInsert_eq (C : Main M peek cachedM InvM cs ms lim rem) (h : Inv cachedM InvM cs ws lim mx e s) (r : Req) :
    (algo H M peek).canInsert s r = (admits ws lim s r, { s with base := { s.base with adm := (s.base.adm.admit r).2 } }) := by
  show canInsert M s r = _
  rw [canInsert, canInsertDefault_eq]
  simp only [C.canInsert r h.main, h.win.csz, h.mdz, admits]
  by_cases h1 : (admitsBase s.base r && decide (r.size ≤ ws)) = true
  · rw [if_pos (by simpa using h1)]; simp [h1]
  · rw [if_neg (by simpa using h1)]
    have : (admitsBase s.base r && decide (r.size ≤ ws)) = false := by simpa using h1
    simp [this]

theorem frame (h : Inv cachedM InvM cs ws lim mx e s) (k : Nat) (a : Adm) :
    Inv cachedM InvM cs ws lim mx e { s with base := { s.base with nReq := k, adm := a } } :=
  ⟨h.csz, h.mdz, h.mxz, h.win, h.main, h.dis, h.cap, h.small, h.sk, h.pos⟩

theorem bump_inv (h : Inv cachedM InvM cs ws lim mx e s) : Inv cachedM InvM cs ws lim mx e ((algo H M peek).bump s) :=
  ⟨h.csz, h.mdz, h.mxz, h.win, h.main, h.dis, h.cap, h.small, h.sk, h.pos⟩

theorem Inv.charged (h : Inv cachedM InvM cs ws lim mx e s) (he : e) (hne : cached cachedM s ≠ []) : 0 < charge 0 (cached cachedM s) := by
  obtain ⟨x, hx⟩ := List.exists_mem_of_ne_nil _ hne
  exact charge_pos_of_mem hx (h.pos he x hx)

/-- What is asked of the requests: a client that calls `insert` itself inserts no objects the main cache would not admit, and a client that calls `evict` has no empty objects. -/
def Fits (lim : Nat) (p : Perms) (r : Req) : Prop := (p.ins = true → r.size ≤ lim) ∧ (p.ev = true → 0 < r.size % u32)

/-- W-TinyLFU meets the contract. -/
theorem contract (C : Main M peek cachedM InvM cs ms lim rem) (ws : Nat) {p : Perms} (hp : p.rem = true → rem) :
    Contract (algo H M peek) (cached cachedM) (Inv cachedM InvM cs ws lim (32 * ms) (p.ev = true)) (fun _ r => r.size ≤ lim ∧ r.size ≤ cs)
      (measure cachedM) cs 0 p (Fits lim p) where
  csz := fun h => h.csz
  mdz := fun h => h.mdz
  nodup := fun h => h.nodup C
  occ := fun h => h.occ C
  nObj := fun {s} h => by
    show s.win.base.nObj + M.nObj s.main = _
    rw [h.win.nObj, C.nObj h.main, cached, List.length_append, cont_length]; push_cast; rfl
  cap := fun h => by rw [h.occ C]; have := h.cap; omega
  bump := fun h => ⟨bump_inv h, rfl⟩
  findF := fun _ _ r h => find_false C h r
  findHit := fun {s} r h hin _ => by
    rcases (mem_cached s r.id).1 hin with hf | hf
    · obtain ⟨s', h1, h2, h3, _⟩ := findWin (H := H) C h hf
      exact ⟨s', h1, h2, h3.subperm⟩
    · obtain ⟨s', h1, h2, h3, _⟩ := findMain (H := H) C h hf
      exact ⟨s', h1, h2, h3⟩
  findMiss := fun {s} r h hin _ => by
    have hcan := canInsert_eq (H := H) C h r
    refine ⟨s, find_miss C h hin, h, List.Perm.refl _, by rw [hcan]; exact frame h _ _, by rw [hcan]; exact List.Perm.refl _, ?_⟩
    intro hc _
    rw [hcan] at hc
    have hc' : admits ws lim s r = true := hc
    simp only [admits, admitsBase, Bool.and_eq_true, decide_eq_true_eq, h.csz, h.mdz] at hc'
    exact ⟨hc'.2, by omega⟩
  fuel := fun {s} h => by
    show measure cachedM s ≤ s.win.base.tbl.length + (M.nObj s.main).toNat
    rw [measure, h.win.perm.length_eq, C.nObj h.main, cached]
    simp
  evictLoop := fun {s} r h _ hr hn hme => by
    have hb : 0 < charge 0 (cached cachedM s) := by
      rw [mustEvict_iff C h] at hme
      have := hr.2
      omega
    obtain ⟨s', k1, k2, k3, k4, _⟩ := evict_spec (H := H) C h hb r
    exact ⟨s', k1, k2, hr, k3, k4⟩
  insert := fun {s} r h hor hr hn hme => by
    obtain ⟨s', k1, k2, k4, _⟩ := insert_spec C h r hn hme hr.1 hor.2
    exact ⟨s', k1, k2, by rw [k4]⟩
  userInsert := fun hpi {s} r h hor hn hme => by
    obtain ⟨s', k1, k2, k4, _⟩ := insert_spec C h r hn hme (hor.1 hpi) hor.2
    exact ⟨s', k1, k2, by rw [k4]⟩
  remove := fun hpr {s} id h => by
    obtain ⟨s', k1, k2, k3, _⟩ := remove_spec C (hp hpr) h id
    exact ⟨_, s', k1, k2, k3.subperm.trans List.filter_sublist.subperm⟩
  evict := fun hpe {s} r h hne => by
    obtain ⟨s', k1, k2, k3, _⟩ := evict_spec (H := H) C h (h.charged hpe hne) r
    exact ⟨s', k1, k2, k3⟩

theorem used_view (r : Req) (s : State τ) : bytes 0 (view s).win + (parts H M peek cachedM r).used (view s).main = charge 0 (cached cachedM s) := by
  rw [cached, charge_append]
  show bytes 0 (cont s.win.objs) + bytes 0 (cachedM s.main) = _
  rw [bytes_eq_charge, bytes_eq_charge]

/-- The eviction loop. -/
theorem loop_spec (C : Main M peek cachedM InvM cs ms lim rem) (r : Req) (hr : r.size ≤ cs) :
    ∀ k (s : State τ), Inv cachedM InvM cs ws lim mx e s → measure cachedM s ≤ k →
      ∃ s', (algo H M peek).evictLoop r k s = .ok s' ∧ Inv cachedM InvM cs ws lim mx e s' ∧ (algo H M peek).mustEvict s' r = false ∧
        (cached cachedM s').Subperm (cached cachedM s) ∧ s'.counter = s.counter ∧
        TinyLFU.Drains ms (parts H M peek cachedM r) r.size cs (view s) (view s') := by
  intro k
  induction k with
  | zero =>
    intro s h hm
    cases hme : (algo H M peek).mustEvict s r with
    | false =>
      refine ⟨s, by simp [Algo.evictLoop, hme], h, hme, List.Subperm.refl _, rfl, TinyLFU.Drains.done ?_⟩
      have := (mustEvict_iff (H := H) C h r).not
      simp only [hme, Bool.false_eq_true, not_false_eq_true, true_iff] at this
      rw [used_view]; omega
    | true =>
      have h1 := (mustEvict_iff C h r).1 hme
      obtain ⟨s', _, _, _, h4, _⟩ := evict_spec (H := H) C h (by omega) r
      omega
  | succ k ih =>
    intro s h hm
    cases hme : (algo H M peek).mustEvict s r with
    | false =>
      refine ⟨s, by simp [Algo.evictLoop, hme], h, hme, List.Subperm.refl _, rfl, TinyLFU.Drains.done ?_⟩
      have := (mustEvict_iff (H := H) C h r).not
      simp only [hme, Bool.false_eq_true, not_false_eq_true, true_iff] at this
      rw [used_view]; omega
    | true =>
      have h1 := (mustEvict_iff C h r).1 hme
      obtain ⟨s1, k1, k2, k3, k4, _, k5, _, k6, _⟩ := evict_spec (H := H) C h (by omega) r
      obtain ⟨s', l1, l2, l3, l4, l6, l5⟩ := ih s1 k2 (by omega)
      refine ⟨s', ?_, l2, l3, l4.trans k3, l6.trans k5, TinyLFU.Drains.more (by rw [used_view]; omega) k6 l5⟩
      simp only [Algo.evictLoop, hme, if_true]
      rw [show (algo H M peek).evict s r = evict H M peek s r from rfl, k1, Res.bind_ok, l1]

/-- A whole `get`. -/
theorem get_spec (C : Main M peek cachedM InvM cs ms lim rem) (h : Inv cachedM InvM cs ws lim (32 * ms) e s) (r : Req) (hz : e → 0 < r.size % u32) :
    (r.id ∈ (cont s.win.objs).ids → ∃ s', (algo H M peek).get s r = .ok (true, s') ∧
      cont s'.win.objs = TinyLFU.touch r.id (cont s.win.objs) ∧ s'.main = s.main ∧ s'.sk = s.sk ∧ s'.counter = s.counter) ∧
    (r.id ∈ (cachedM s.main).ids → ∃ s', (algo H M peek).get s r = .ok (true, s') ∧ s'.win = s.win ∧ M.find s.main r true = .ok (true, s'.main) ∧ Counts H r.id s s') ∧
    (r.id ∉ (cached cachedM s).ids → admits ws lim s r = false → ∃ s', (algo H M peek).get s r = .ok (false, s') ∧ s'.win = s.win ∧ s'.main = s.main ∧ s'.sk = s.sk ∧ s'.counter = s.counter) ∧
    (r.id ∉ (cached cachedM s).ids → admits ws lim s r = true → ∃ s' w k, (algo H M peek).get s r = .ok (false, s') ∧ cont s'.win.objs = (r.id, r.size % u32) :: w ∧
      (∃ v, CBF.add H k r.id = .ok (v, s'.sk)) ∧ s'.counter = s.counter ∧ (cached cachedM s').Subperm ((r.id, r.size % u32) :: cached cachedM s) ∧
        TinyLFU.Drains ms (parts H M peek cachedM r) r.size cs (view s) ⟨w, s'.main, k⟩) := by
  have hb := bump_inv (H := H) (M := M) (peek := peek) h
  refine ⟨fun hin => ?_, fun hin => ?_, fun hin had => ?_, fun hin had => ?_⟩
  · rw [cont_ids] at hin
    obtain ⟨s', h1, _, _, h4, h5, h6, h7, _⟩ := findWin (H := H) C hb hin
    exact ⟨s', get_hit h1, h4, h5, h6, h7⟩
  · obtain ⟨s', h1, _, _, h4, h5, h6, _⟩ := findMain (H := H) C hb hin
    exact ⟨s', get_hit h1, h4, h5, h6⟩
  · have h1 := find_miss (H := H) C hb hin
    have hcan := canInsert_eq (H := H) C hb r
    have ha : admits ws lim ((algo H M peek).bump s) r = false := had
    rw [ha] at hcan
    exact ⟨_, get_reject h1 hcan, rfl, rfl, rfl, rfl⟩
  · have h1 := find_miss (H := H) C hb hin
    have hcan := canInsert_eq (H := H) C hb r
    have ha : admits ws lim ((algo H M peek).bump s) r = true := had
    rw [ha] at hcan
    simp only [admits, admitsBase, Bool.and_eq_true, decide_eq_true_eq, h.csz, h.mdz] at had
    have hi2 := frame hb ((algo H M peek).bump s).base.nReq (((algo H M peek).bump s).base.adm.admit r).2
    obtain ⟨s3, l1, l2, l3, l4, l6, l5⟩ := loop_spec (H := H) C r (by omega) _ _ hi2
      ((contract (H := H) C ws (p := { rem := false, ev := false }) (by simp)).fuel
        ⟨hi2.csz, hi2.mdz, hi2.mxz, hi2.win, hi2.main, hi2.dis, hi2.cap, hi2.small, hi2.sk, by simp⟩)
    have hn3 : r.id ∉ (cached cachedM s3).ids := notMem_ids_of_subperm l4 hin
    obtain ⟨s4, k1, k2, k3, k4, k5, k6, k7⟩ := insert_spec C l2 r hn3 l3 had.2 hz
    refine ⟨s4, cont s3.win.objs, s3.sk, get_accept h1 hcan l1 k1, k4, k6, k7.trans l6, ?_, ?_⟩
    · rw [k3]; exact (List.subperm_cons _).2 l4
    · have e3 : view s3 = ⟨cont s3.win.objs, s4.main, s3.sk⟩ := by rw [k5]; rfl
      rw [← e3]
      exact l5

end
end WTinyLFU
end Verif
