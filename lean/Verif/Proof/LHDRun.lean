import Verif.Proof.LHDCache
import Verif.Proof.SingleBase
/-!
# Helper proofs for LHD: runs of calls
-/

namespace Verif.LHD
open Verif Spec Spec.LHD
variable {R : Rounding} {cs md : Nat}

/-- what holds after every call, except for the pending candidate -/
structure Inv0 (R : Rounding) (cs md : Nat) (s : State) : Prop where
  csz : s.base.cacheSize = cs
  mdz : s.base.objMd = md
  nodup : (s.sizeMap.map Prod.fst).Nodup
  occ : s.base.occ = (charge md s.sizeMap : Nat)
  nObj : s.base.nObj = (s.sizeMap.length : Nat)
  small : ∀ x ∈ s.sizeMap, 0 < x.2 ∧ x.2 + md < u32
  t : TInv R s

/-- what holds after every call: moreover no candidate is pending -/
structure Inv (R : Rounding) (cs md : Nat) (s : State) : Prop extends Inv0 R cs md s where
  vt : s.candVt < s.base.nReq

theorem inv_init (R : Rounding) (cs md : Nat) (adm : Adm) (picks : List Nat) : Inv R cs md (init R cs md adm picks) where
  csz := rfl
  mdz := rfl
  nodup := List.nodup_nil
  occ := rfl
  nObj := rfl
  small := by simp [init]
  t := by
    refine ⟨List.Perm.refl _, ?_, ?_, ?_, ?_, ?_, ?_⟩
    · intro id i; simp [init]
    · simp [init]
    · simp [init]
    · intro c hc
      refine ⟨fun a => Num.zero, fun a => Num.zero, fun a => R.nonneg (by positivity), fun a => ?_⟩
      have := R.le_nat 256 (by decide) (x := ((c + 1 : Nat) : Rat) / ((a + 1 : Nat) : Rat)) (by
        rw [div_le_iff₀ (by positivity)]
        have h1 : ((c + 1 : Nat) : Rat) ≤ 256 := by
          have : c + 1 ≤ 256 := hc
          exact_mod_cast this
        have h2 : (1 : Rat) ≤ ((a + 1 : Nat) : Rat) := by
          have : 1 ≤ a + 1 := by omega
          exact_mod_cast this
        push_cast at h1 h2 ⊢
        linarith)
      have e : ((init R cs md adm picks).classes c).dens a = R.rnd (((c + 1 : Nat) : Rat) / ((a + 1 : Nat) : Rat)) := by
        simp only [init]
      rw [e]
      exact_mod_cast this
    · exact ⟨by simp [init], by simp [init, accsPerReconfiguration], fun _ => ⟨rfl, fun c a => by simp only [init]⟩⟩
    · simp [init]
  vt := by show (-1 : Int) < ((0 : Nat) : Int); decide

/-- A state that differs in the counters, the admission policy, the random numbers and the like only. -/
theorem Inv0.frame {s s' : State} (h : Inv0 R cs md s) (h1 : s'.base.cacheSize = s.base.cacheSize) (h2 : s'.base.objMd = s.base.objMd)
    (h3 : s'.base.occ = s.base.occ) (h4 : s'.base.nObj = s.base.nObj) (h5 : s'.sizeMap = s.sizeMap) (h6 : s'.tags = s.tags)
    (h7 : s'.indices = s.indices) (h8 : s'.classes = s.classes)
    (h9 : s'.numReconfigurations = s.numReconfigurations) (h10 : s'.timestamp = s.timestamp)
    (h11 : s'.nextReconfiguration = s.nextReconfiguration) (h12 : s'.shift = s.shift) : Inv0 R cs md s' :=
  ⟨h1.trans h.csz, h2.trans h.mdz, by rw [h5]; exact h.nodup, by rw [h3, h5]; exact h.occ, by rw [h4, h5]; exact h.nObj,
    by rw [h5]; exact h.small, ⟨by rw [h6, h5]; exact h.t.perm, by rw [h6, h7]; exact h.t.idx, by rw [h6]; exact h.t.app,
    by rw [h6]; exact h.t.pos, by rw [h8]; exact h.t.classes,
    h.t.clk.congr h9 h10 h11 h12 (fun c => by rw [h8]), by rw [h6]; exact h.t.siz⟩⟩

theorem find_false {s : State} (r : Req) : find R s r false = .ok (decide (r.id ∈ s.sizeMap.map Prod.fst), s) := by
  unfold find
  cases h : lookup s r.id with
  | none => simp only [decide_eq_false (lookup_none.1 h)]
  | some z =>
    have : r.id ∈ s.sizeMap.map Prod.fst := by
      by_contra hc
      rw [lookup_none.2 hc] at h; cases h
    simp only [Bool.false_eq_true, if_false, decide_eq_true this]

theorem find_miss {s : State} (r : Req) (u : Bool) (h : r.id ∉ s.sizeMap.map Prod.fst) : find R s r u = .ok (false, s) := by
  unfold find
  rw [lookup_none.2 h]

/-- What a hit does: the object gets the size of the request, the rest is kept. -/
theorem find_hit {s : State} (h : Inv0 R cs md s) {r : Req} (hr : Sized md r) (hin : r.id ∈ s.sizeMap.map Prod.fst) :
    ∃ s', find R s r true = .ok (true, s') ∧ Inv0 R cs md s' ∧ s'.candVt = s.candVt ∧ s'.base.nReq = s.base.nReq ∧ s'.base.adm = s.base.adm ∧
      s'.sizeMap = s.sizeMap.map (fun x => if x.1 = r.id then (x.1, r.size) else x) ∧
      s'.timestamp = s.timestamp + 1 ∧ (R = .exact → balance s' = balance s) := by
  obtain ⟨z, hz⟩ := lookup_some hin
  have hm := lookup_mem hz
  have hu : r.size % u32 = r.size := Nat.mod_eq_of_lt (by have := hr.2; omega)
  have hperm := perm_cons_filter h.nodup hm
  have hres := perm_resize (z' := r.size) h.nodup hm
  have hocc := h.occ
  rw [charge_perm hperm] at hocc
  simp only [charge] at hocc
  unfold find
  simp only [hz, if_true]
  have key : ∀ s1 : State, Inv0 R cs md s1 → s1.sizeMap = s.sizeMap.map (fun x => if x.1 = r.id then (x.1, r.size) else x) →
      s1.candVt = s.candVt → s1.base.nReq = s.base.nReq → s1.base.adm = s.base.adm →
      s1.timestamp = s.timestamp → balance s1 = balance s →
      ∃ s', (update R s1 r.id r.size >>= fun s' => .ok (true, s')) = (.ok (true, s') : Res (Bool × State)) ∧ Inv0 R cs md s' ∧
      s'.candVt = s.candVt ∧ s'.base.nReq = s.base.nReq ∧ s'.base.adm = s.base.adm ∧
      s'.sizeMap = s.sizeMap.map (fun x => if x.1 = r.id then (x.1, r.size) else x) ∧
      s'.timestamp = s.timestamp + 1 ∧ (R = .exact → balance s' = balance s) := by
    intro s1 h1 e1 e2 e3 e4 e5 e6
    obtain ⟨s', k1, k2, k3, k4, k5, k6, k7, k8⟩ := update_hit (R := R) (s := s1) (id := r.id) (z := r.size) hr.1 h1.t
      (by rw [e1, ids_resize]; exact hin)
    refine ⟨s', by rw [k1, Res.bind_ok], ⟨?_, ?_, ?_, ?_, ?_, ?_, k2⟩, by rw [k6, e2], by rw [k3, e3], by rw [k3, e4], by rw [k4, e1], by rw [k7, e5],
      fun hh => by rw [k8 hh, e6]⟩
    · rw [k3]; exact h1.csz
    · rw [k3]; exact h1.mdz
    · rw [k4]; exact h1.nodup
    · rw [k3, k4]; exact h1.occ
    · rw [k3, k4]; exact h1.nObj
    · rw [k4]; exact h1.small
  by_cases e : z = r.size
  · rw [if_neg (not_not.2 e)]
    refine key s h ?_ rfl rfl rfl rfl rfl
    conv_lhs => rw [← List.map_id s.sizeMap]
    refine List.map_congr_left fun x hx => ?_
    split
    · rename_i hxi
      have : x = (r.id, z) := by
        have h2 := perm_cons_filter h.nodup (id := x.1) (z := x.2) hx
        rw [hxi] at h2
        have h3 := h2.subset hm
        rcases List.mem_cons.1 h3 with h3 | h3
        · rw [h3]; exact Prod.ext hxi rfl
        · simp at h3
      rw [this, e]; rfl
    · rfl
  · rw [if_pos e, hu]
    refine key _ ⟨h.csz, h.mdz, ?_, ?_, ?_, ?_, ⟨?_, h.t.idx, h.t.app, h.t.pos, h.t.classes, h.t.clk.congr rfl rfl rfl rfl (fun c => rfl), h.t.siz⟩⟩ rfl rfl rfl rfl rfl rfl
    · dsimp only; rw [ids_resize]; exact h.nodup
    · dsimp only
      rw [charge_perm hres]
      simp only [charge]
      push_cast at hocc ⊢
      omega
    · dsimp only; rw [List.length_map]; exact h.nObj
    · intro x hx
      rcases List.mem_cons.1 (hres.subset hx) with rfl | hx
      · exact hr
      · exact h.small x (List.mem_filter.1 hx).1
    · dsimp only; rw [ids_resize]; exact h.t.perm

theorem insert_spec {s : State} (h : Inv0 R cs md s) {r : Req} (hr : Sized md r) (hn : r.id ∉ s.sizeMap.map Prod.fst) :
    ∃ s', insert R s r = .ok s' ∧ Inv0 R cs md s' ∧ s'.candVt = s.candVt ∧ s'.base.nReq = s.base.nReq ∧ s'.base.adm = s.base.adm ∧
      s'.sizeMap = (r.id, r.size) :: s.sizeMap ∧ s'.timestamp = s.timestamp + 1 ∧ (R = .exact → balance s' = balance s) := by
  have hu : r.size % u32 = r.size := Nat.mod_eq_of_lt (by have := hr.2; omega)
  unfold insert
  rw [filter_notin hn, hu]
  obtain ⟨s', k1, k2, k3, k4, k5, k6, k7, k8⟩ := update_new (R := R) (s := { s with sizeMap := (r.id, r.size) :: s.sizeMap }) (id := r.id) hr.1
    (fun hh => hn (h.t.perm.subset hh)) h.t.idx h.t.app h.t.pos h.t.classes (h.t.clk.congr rfl rfl rfl rfl (fun c => rfl)) h.t.siz (by simpa using h.t.perm)
  rw [k1, Res.bind_ok]
  refine ⟨_, rfl, ⟨?_, ?_, ?_, ?_, ?_, ?_, ⟨k2.perm, k2.idx, k2.app, k2.pos, k2.classes, k2.clk.congr rfl rfl rfl rfl (fun c => rfl), k2.siz⟩⟩,
    k6, ?_, ?_, k4, k7, k8⟩
  · dsimp only; rw [k3]; exact h.csz
  · dsimp only; rw [k3]; exact h.mdz
  · dsimp only; rw [k4]
    exact List.nodup_cons.2 ⟨hn, h.nodup⟩
  · dsimp only; rw [k3, k4]
    have := h.occ
    have hm := h.mdz
    simp only [charge]
    rw [this, hm]
    push_cast
    omega
  · dsimp only; rw [k3, k4]
    have := h.nObj
    rw [this, List.length_cons]
    push_cast; rfl
  · dsimp only; rw [k4]
    intro x hx
    rcases List.mem_cons.1 hx with rfl | hx
    · exact hr
    · exact h.small x hx
  · dsimp only; rw [k3]
  · dsimp only; rw [k3]

/-- `swapRemove` after `forget`: the object is gone. -/
theorem gone_spec {s : State} (h : Inv0 R cs md s) {id : ObjId} {z : Nat} (hz : lookup s id = some z) {f : Nat → Class} {b : Int}
    (hf : ClassesOk R f) (hd : ∀ c, (f c).dens = (s.classes c).dens) {i : Nat} {t : Tag} (hi : s.tags[i]? = some t) (ht : t.id = id) :
    ∃ s', swapRemove { forget s id z with classes := f, budget := b } id i = .ok s' ∧ Inv0 R cs md s' ∧
      s'.sizeMap = s.sizeMap.filter (fun x => x.1 ≠ id) ∧ s'.candVt = s.candVt ∧ s'.base.nReq = s.base.nReq ∧ s'.base.adm = s.base.adm ∧
      s'.timestamp = s.timestamp ∧ balance s' + (if t.explorer then t.size else 0) = b + explorers s.tags := by
  have hm := lookup_mem hz
  have hperm := perm_cons_filter h.nodup hm
  obtain ⟨s', l, k1, k2, k3, k4, k5⟩ := swapRemove_spec (s := { forget s id z with classes := f, budget := b }) (id := id) (i := i) (t := t) hi ht h.t.idx
  have kt : s'.tags = l := by rw [k2]
  refine ⟨s', k1, ⟨?_, ?_, ?_, ?_, ?_, ?_, ⟨?_, k5, ?_, ?_, ?_, ?_, ?_⟩⟩, by rw [k2]; rfl, by rw [k2]; rfl,
    by rw [k2]; rfl, by rw [k2]; rfl, by rw [k2]; rfl, ?_⟩
  rotate_right
  · have k3' : s.tags.Perm (t :: l) := k3
    have hb : s'.budget = b := by rw [k2]
    unfold balance
    rw [kt, hb, explorers_perm k3', explorers_cons]
    ring
  · rw [k2]; exact h.csz
  · rw [k2]; exact h.mdz
  · rw [k2]
    show (((s.sizeMap.filter (fun x => x.1 ≠ id))).map Prod.fst).Nodup
    exact h.nodup.sublist (List.Sublist.map _ List.filter_sublist)
  · rw [k2]
    show s.base.occ - (((z + s.base.objMd) % u32 : Nat) : Int) = (charge md (s.sizeMap.filter (fun x => x.1 ≠ id)) : Nat)
    have h1 := h.occ
    rw [charge_perm hperm] at h1
    simp only [charge] at h1
    have h2 := (h.small _ hm).2
    rw [h.mdz, Nat.mod_eq_of_lt h2, h1]
    push_cast
    omega
  · rw [k2]
    show s.base.nObj - 1 = ((s.sizeMap.filter (fun x => x.1 ≠ id)).length : Nat)
    have h1 := h.nObj
    rw [hperm.length_eq, List.length_cons] at h1
    rw [h1]; push_cast; omega
  · rw [k2]
    intro x hx
    exact h.small x (List.mem_filter.1 hx).1
  · rw [kt]
    have hs : s'.sizeMap = s.sizeMap.filter (fun x => x.1 ≠ id) := by rw [k2]; rfl
    rw [hs]
    refine perm_filter_of_cons ?_ h.nodup
    refine List.Perm.trans ?_ h.t.perm
    have := (k3.map (fun x : Tag => x.id)).symm
    rw [List.map_cons, ht] at this
    exact this
  · rw [kt]; exact fun x hx => h.t.app x (k4 x hx)
  · rw [kt]; exact fun x hx => h.t.pos x (k4 x hx)
  · rw [k2]; exact hf
  · rw [k2]; exact h.t.clk.congr rfl rfl rfl rfl hd
  · rw [kt]; exact fun x hx => h.t.siz x (k4 x hx)

theorem evictThis_spec {s : State} (h : Inv0 R cs md s) {id : ObjId} (hin : id ∈ s.sizeMap.map Prod.fst) :
    ∃ s' z, evictThis R s id = .ok s' ∧ Inv0 R cs md s' ∧ (id, z) ∈ s.sizeMap ∧ s'.sizeMap = s.sizeMap.filter (fun x => x.1 ≠ id) ∧
      s'.candVt = s.candVt ∧ s'.base.nReq = s.base.nReq ∧ s'.base.adm = s.base.adm ∧
      s'.timestamp = s.timestamp ∧ (R = .exact → balance s' = balance s) := by
  obtain ⟨z, hz⟩ := lookup_some hin
  obtain ⟨i, t, h1, h2, h3⟩ := h.t.some hin
  have hta := h.t.app t (List.mem_of_getElem? h2)
  obtain ⟨s', k1, k2, k3, k4, k5, k6, k7, k8⟩ := gone_spec h hz (b := giveBack R (forget s id z) t)
    (h.t.classes.set (classId t) (c := addEviction R (s.classes (classId t)) (age s t)) (fun hh => (h.t.classes _ hh).addEviction _))
    (fun c => set_addEviction_dens _ _ _ c) h2 h3
  refine ⟨s', z, ?_, k2, lookup_mem hz, k3, k4, k5, k6, k7, ?_⟩
  rotate_right
  · intro hR
    obtain ⟨n, hn⟩ := h.t.siz t (List.mem_of_getElem? h2)
    have hg : ((giveBack R (forget s id z) t : Int) : Rat) = s.budget + (if t.explorer then t.size else 0) := by
      have hfb : (forget s id z).budget = s.budget := rfl
      unfold giveBack
      rw [hfb]
      subst hR
      cases t.explorer with
      | false => simp
      | true =>
        have : ((s.budget : Rat) + (n : Rat)) = ((s.budget + (n : Int) : Int) : Rat) := by push_cast; rfl
        simp only [if_true, Rounding.exact, id_eq, hn, this, toInt_int]
    rw [hg] at k8
    unfold balance at k8 ⊢
    linarith
  unfold evictThis
  simp only [hz]
  unfold replaced
  have e1 : (forget s id z).indices id = some i := h1
  have e2 : (forget s id z).tags[i]? = some t := h2
  simp only [e1, e2]
  rw [if_neg (not_not.2 h3), if_neg (Nat.not_le.2 (classId_lt hta))]
  exact k1

theorem remove_hit {s : State} (h : Inv0 R cs md s) {id : ObjId} (hin : id ∈ s.sizeMap.map Prod.fst) :
    ∃ s', remove s id = .ok (true, s') ∧ Inv0 R cs md s' ∧ s'.sizeMap = s.sizeMap.filter (fun x => x.1 ≠ id) ∧
      s'.candVt = s.candVt ∧ s'.base.nReq = s.base.nReq := by
  obtain ⟨z, hz⟩ := lookup_some hin
  obtain ⟨i, t, h1, h2, h3⟩ := h.t.some hin
  obtain ⟨s', k1, k2, k3, k4, k5, _⟩ := gone_spec (R := R) h hz (b := s.budget) h.t.classes (fun c => rfl) h2 h3
  refine ⟨s', ?_, k2, k3, k4, k5⟩
  unfold remove
  simp only [hz, h1, Option.getD_some]
  have e : swapRemove (forget s id z) id i = .ok s' := k1
  rw [e, Res.bind_ok]

theorem remove_miss {s : State} {id : ObjId} (hn : id ∉ s.sizeMap.map Prod.fst) : remove s id = .ok (false, s) := by
  unfold remove
  rw [lookup_none.2 hn]

theorem tags_ne {s : State} (h : Inv0 R cs md s) (hne : s.sizeMap ≠ []) : s.tags ≠ [] := by
  intro e
  have := h.t.perm.length_eq
  rw [e] at this
  simp at this
  exact hne (List.length_eq_zero_iff.1 this.symm)

theorem evict_spec {s : State} (h : Inv R cs md s) (hne : s.sizeMap ≠ []) :
    ∃ t z s', evict R s = .ok s' ∧ Inv R cs md s' ∧ Worst R s t ∧ (t.id, z) ∈ s.sizeMap ∧
      s'.sizeMap = s.sizeMap.filter (fun x => x.1 ≠ t.id) ∧ s'.base.nReq = s.base.nReq ∧ s'.base.adm = s.base.adm ∧
      s'.timestamp = s.timestamp ∧ (R = .exact → balance s' = balance s) := by
  obtain ⟨t, ew, h1, h2, h3, h4⟩ := rank_spec h.t (tags_ne h.toInv0 hne)
  have hin : t.id ∈ s.sizeMap.map Prod.fst := h.t.perm.subset (List.mem_map.2 ⟨t, h2, rfl⟩)
  obtain ⟨s', z, k1, k2, k3, k4, k5, k6, k7, k8, k9⟩ := evictThis_spec (R := R)
    (s := { s with picks := s.picks.drop (candidates s), ewmaVictim := ew }) (id := t.id)
    (h.toInv0.frame rfl rfl rfl rfl rfl rfl rfl rfl rfl rfl rfl rfl) hin
  refine ⟨t, z, s', ?_, ⟨k2, ?_⟩, ⟨h2, h3, h4⟩, k3, k4, k6, k7, k8, k9⟩
  · unfold evict
    rw [if_neg (by have := h.vt; omega), h1, Res.bind_ok]
    exact k1
  · rw [k5, k6]; exact h.vt

/-- `to_evict`, then `evict` -/
theorem toEvict_spec {s : State} (h : Inv R cs md s) (hne : s.sizeMap ≠ []) :
    ∃ t z s1 s', toEvict R s = .ok (t.id, s1) ∧ s1.sizeMap = s.sizeMap ∧ Worst R s t ∧ evict R s1 = .ok s' ∧ Inv R cs md s' ∧ (t.id, z) ∈ s.sizeMap ∧
      s'.sizeMap = s.sizeMap.filter (fun x => x.1 ≠ t.id) := by
  obtain ⟨t, ew, h1, h2, h3, h4⟩ := rank_spec h.t (tags_ne h.toInv0 hne)
  have hin : t.id ∈ s.sizeMap.map Prod.fst := h.t.perm.subset (List.mem_map.2 ⟨t, h2, rfl⟩)
  obtain ⟨s', z, k1, k2, k3, k4, k5, k6, k7, k8, k9⟩ := evictThis_spec (R := R)
    (s := { s with picks := s.picks.drop (candidates s), ewmaVictim := ew, cand := some t.id, candVt := -1 }) (id := t.id)
    (h.toInv0.frame rfl rfl rfl rfl rfl rfl rfl rfl rfl rfl rfl rfl) hin
  obtain ⟨y, hy⟩ := lookup_some hin
  refine ⟨t, z, { s with picks := s.picks.drop (candidates s), ewmaVictim := ew, cand := some t.id, candVt := s.base.nReq }, s', ?_, rfl,
    ⟨h2, h3, h4⟩, ?_, ⟨k2, ?_⟩, k3, k4⟩
  · unfold toEvict
    rw [h1, Res.bind_ok]
    have e : lookup ({ s with picks := s.picks.drop (candidates s), ewmaVictim := ew } : State) t.id = some y := hy
    simp only [e]
  · unfold evict
    rw [if_pos rfl]
    exact k1
  · rw [k5, k6]; simp; omega

/-! ### Requests -/

theorem Inv.bump {s : State} (h : Inv R cs md s) : Inv R cs md ((algo R).bump s) :=
  ⟨h.toInv0.frame rfl rfl rfl rfl rfl rfl rfl rfl rfl rfl rfl rfl, by have := h.vt; simp only [algo, Base.bump]; push_cast; omega⟩

theorem canInsert_eq (s : State) (r : Req) : (algo R).canInsert s r = (admitsBase s.base r, { s with base := { s.base with adm := (s.base.adm.admit r).2 } }) := by
  simp only [algo, canInsertDefault_eq]

theorem Inv.canInsert {s : State} (h : Inv R cs md s) (r : Req) : Inv R cs md ((algo R).canInsert s r).2 := by
  rw [canInsert_eq]
  exact ⟨h.toInv0.frame rfl rfl rfl rfl rfl rfl rfl rfl rfl rfl rfl rfl, h.vt⟩

theorem mustEvict_ne {s : State} (h : Inv0 R cs md s) {r : Req} (hr : r.size + md ≤ cs) (hm : (algo R).mustEvict s r = true) : s.sizeMap ≠ [] := by
  intro e
  have h1 := h.occ
  rw [e] at h1
  simp only [Algo.mustEvict, algo, decide_eq_true_eq, h.csz, h.mdz, h1, charge] at hm
  push_cast at hm
  omega

theorem loop_spec {r : Req} (hr : r.size + md ≤ cs) : ∀ (n : Nat) (s : State), Inv R cs md s → s.sizeMap.length ≤ n →
    ∃ s' vs, (algo R).evictLoop r n s = .ok s' ∧ Inv R cs md s' ∧ Evictions R s vs s' ∧ (algo R).mustEvict s' r = false ∧
      s.sizeMap.Perm (vs ++ s'.sizeMap) ∧ s'.base.nReq = s.base.nReq ∧ s'.base.adm = s.base.adm ∧
      s'.timestamp = s.timestamp ∧ (R = .exact → balance s' = balance s) ∧
      ∀ us v, vs = us ++ [v] → charge md (v :: s'.sizeMap) + r.size + md > cs := by
  intro n
  induction n with
  | zero =>
    intro s h hl
    cases hm : (algo R).mustEvict s r with
    | false => exact ⟨s, [], by simp [Algo.evictLoop, hm], h, .nil s, hm, List.Perm.refl _, rfl, rfl, rfl, fun _ => rfl, by simp⟩
    | true => exact absurd (List.length_eq_zero_iff.1 (Nat.le_zero.1 hl)) (mustEvict_ne h.toInv0 hr hm)
  | succ n ih =>
    intro s h hl
    cases hm : (algo R).mustEvict s r with
    | false => exact ⟨s, [], by simp [Algo.evictLoop, hm], h, .nil s, hm, List.Perm.refl _, rfl, rfl, rfl, fun _ => rfl, by simp⟩
    | true =>
      obtain ⟨t, z, s1, h1, h2, h3, h4, h5, h6, h7, h8, h9⟩ := evict_spec h (mustEvict_ne h.toInv0 hr hm)
      have hp := perm_cons_filter h.nodup h4
      have hlen := hp.length_eq
      rw [List.length_cons, ← h5] at hlen
      obtain ⟨s', vs, k1, k2, k3, k4, k5, k6, k7, k9, k10, k8⟩ := ih s1 h2 (by omega)
      have e1 : (algo R).evict s r = .ok s1 := h1
      rw [← h5] at hp
      refine ⟨s', (t.id, z) :: vs, by simp [Algo.evictLoop, hm, e1, k1], k2, .cons h3 h4 h1 k3, k4, hp.trans (k5.cons _), k6.trans h6, k7.trans h7,
        k9.trans h8, fun hh => (k10 hh).trans (h9 hh), ?_⟩
      intro us v huv
      rcases List.eq_nil_or_concat vs with rfl | ⟨ws, w, rfl⟩
      · have hv : v = (t.id, z) := by
          cases us with
          | nil => simpa using huv.symm
          | cons a us => simp at huv
        subst hv
        have hocc := h.occ
        rw [charge_perm hp, charge_perm (md := md) (l := (t.id, z) :: s1.sizeMap) (l' := (t.id, z) :: s'.sizeMap) (List.Perm.cons _ (by simpa using k5))] at hocc
        simp only [Algo.mustEvict, algo, decide_eq_true_eq, h.csz, h.mdz, hocc] at hm
        omega
      · rw [List.concat_eq_append] at huv k8
        have hh : ((t.id, z) :: ws) ++ [w] = us ++ [v] := by simpa using huv
        obtain ⟨_, hb⟩ := List.append_inj' hh rfl
        have : w = v := by simpa using hb
        subst this
        exact k8 ws w rfl

/-- What a `get` does. -/
theorem get_spec {s : State} (h : Inv R cs md s) {r : Req} (hr : Sized md r) :
    ∃ s', (algo R).get s r = .ok (decide (r.id ∈ s.sizeMap.map Prod.fst), s') ∧ Inv R cs md s' ∧
      (R = .exact → balance s' = balance s) ∧
      s'.timestamp = s.timestamp + (if r.id ∈ s.sizeMap.map Prod.fst ∨ admitsBase s.base r = true then 1 else 0) ∧
      (r.id ∈ s.sizeMap.map Prod.fst → s'.sizeMap = s.sizeMap.map (fun x => if x.1 = r.id then (x.1, r.size) else x)) ∧
      (r.id ∉ s.sizeMap.map Prod.fst → admitsBase s.base r = false → s' = ((algo R).canInsert ((algo R).bump s) r).2) ∧
      (r.id ∉ s.sizeMap.map Prod.fst → admitsBase s.base r = true → ∃ vs kept, s.sizeMap.Perm (vs ++ kept) ∧
        s'.sizeMap = (r.id, r.size) :: kept ∧ s'.base.occ ≤ cs ∧
        (∀ us v, vs = us ++ [v] → charge md (v :: kept) + r.size + md > cs) ∧
        ∃ s1, Evictions R ((algo R).canInsert ((algo R).bump s) r).2 vs s1 ∧ s1.sizeMap = kept) := by
  have hb := h.bump
  have hbs : ((algo R).bump s).sizeMap = s.sizeMap := rfl
  by_cases hin : r.id ∈ s.sizeMap.map Prod.fst
  · obtain ⟨s', h1, h2, h3, h4, h5, h6, h7, h8⟩ := find_hit hb.toInv0 hr (by rw [hbs]; exact hin)
    refine ⟨s', ?_, ⟨h2, by rw [h3, h4]; exact hb.vt⟩, h8, by rw [if_pos (Or.inl hin)]; exact h7, fun _ => h6, fun hh => absurd hin hh, fun hh => absurd hin hh⟩
    rw [decide_eq_true hin]
    exact get_hit (A := algo R) h1
  · have hf : (algo R).find ((algo R).bump s) r true = .ok (false, (algo R).bump s) := find_miss r true hin
    rw [decide_eq_false hin]
    have hci := hb.canInsert r
    have hce := canInsert_eq (R := R) ((algo R).bump s) r
    have hcs : ((algo R).canInsert ((algo R).bump s) r).2.sizeMap = s.sizeMap := by rw [hce]; rfl
    have hadm : ((algo R).canInsert ((algo R).bump s) r).1 = admitsBase s.base r := by rw [hce]; rfl
    rcases hc : (algo R).canInsert ((algo R).bump s) r with ⟨c, s2⟩
    rw [hc] at hci hcs hadm
    dsimp only at hci hcs hadm
    have hct : s2.timestamp = s.timestamp := by
      have := congrArg (fun x => x.2.timestamp) (hc.symm.trans hce)
      exact this
    have hcb : balance s2 = balance s := by
      have := congrArg (fun x => balance x.2) (hc.symm.trans hce)
      exact this
    cases c with
    | false =>
      exact ⟨s2, get_reject hf hc, hci, fun _ => hcb, by rw [if_neg (by rw [← hadm]; simpa using hin)]; exact hct,
        fun hh => absurd hh hin, fun _ _ => rfl, fun _ hh => absurd (hadm.trans hh) (by decide)⟩
    | true =>
      have hfit : r.size + md ≤ cs := by
        have := hadm.symm
        simp only [admitsBase, Bool.and_eq_true, decide_eq_true_eq, h.csz, h.mdz] at this
        exact this.2
      obtain ⟨s3, vs, k1, k2, k3, k4, k5, k6, k7, k9, k10, k8⟩ := loop_spec (R := R) hfit ((algo R).fuel s2) s2 hci (by simp [algo])
      have hn3 : r.id ∉ s3.sizeMap.map Prod.fst := by
        intro hh
        apply hin
        rw [← hcs]
        obtain ⟨x, hx, hxe⟩ := List.mem_map.1 hh
        exact List.mem_map.2 ⟨x, k5.symm.subset (List.mem_append_right _ hx), hxe⟩
      obtain ⟨s4, j1, j2, j3, j4, j5, j6, j7, j8⟩ := insert_spec k2.toInv0 hr hn3
      refine ⟨s4, get_accept hf hc k1 j1, ⟨j2, by rw [j3, j4]; exact k2.vt⟩,
        fun hh => ((j8 hh).trans (k10 hh)).trans hcb, by rw [if_pos (Or.inr hadm.symm), j7, k9, hct], fun hh => absurd hh hin, fun _ hh => absurd (hadm.trans hh) (by decide),
        fun _ _ => ⟨vs, s3.sizeMap, by rw [← hcs]; exact k5, j6, ?_, k8, s3, k3, rfl⟩⟩
      have h1 := j2.occ
      rw [j6] at h1
      simp only [charge] at h1
      have h2 := k2.occ
      simp only [Algo.mustEvict, algo, decide_eq_false_iff_not, k2.csz, k2.mdz, h2] at k4
      rw [h1]; push_cast; omega

/-- Every permitted call succeeds and preserves the invariant; it adds the requested object only; a removed object is gone; when the sizes
of the requests agree with those cached, the capacity is respected. -/
theorem step_spec {s : State} (h : Inv R cs md s) {op : Op} (hop : Calls { upd := false } (Sized md) op) :
    ∃ b s', (algo R).step s op = .ok (b, s') ∧ Inv R cs md s' ∧
      ((∀ id, op ≠ .remove id) → R = .exact → balance s' = balance s) ∧
      (∀ x ∈ s'.sizeMap, x ∈ s.sizeMap ∨ ∃ r, insertedBy op = some r ∧ x = (r.id, r.size % u32)) ∧
      (∀ id, op = .remove id → id ∉ s'.sizeMap.map Prod.fst) ∧
      (∀ sz : ObjId → Nat, (∀ r, insertedBy op = some r → r.size = sz r.id) → (∀ x ∈ s.sizeMap, x.2 = sz x.1) → s.base.occ ≤ cs → s'.base.occ ≤ cs) := by
  have hfil : ∀ id, charge md (s.sizeMap.filter (fun x => x.1 ≠ id)) ≤ charge md s.sizeMap := fun id => charge_sublist List.filter_sublist
  cases op with
  | get r =>
    have hu : r.size % u32 = r.size := Nat.mod_eq_of_lt (by have := hop.2; omega)
    obtain ⟨s', h1, h2, h0, _, h3, h4, h5⟩ := get_spec h (r := r) hop
    refine ⟨_, s', h1, h2, fun _ => h0, ?_, fun _ hh => (by cases hh), ?_⟩
    · intro x hx
      by_cases hin : r.id ∈ s.sizeMap.map Prod.fst
      · rw [h3 hin] at hx
        obtain ⟨y, hy, hxy⟩ := List.mem_map.1 hx
        split at hxy
        · rename_i e
          exact Or.inr ⟨r, rfl, by rw [hu, ← hxy, e]⟩
        · exact Or.inl (hxy ▸ hy)
      · cases ha : admitsBase s.base r with
        | false =>
          rw [h4 hin ha, canInsert_eq] at hx
          exact Or.inl hx
        | true =>
          obtain ⟨vs, kept, k1, k2, _⟩ := h5 hin ha
          rw [k2] at hx
          rcases List.mem_cons.1 hx with rfl | hx
          · exact Or.inr ⟨r, rfl, by rw [hu]⟩
          · exact Or.inl (k1.symm.subset (List.mem_append_right _ hx))
    · intro sz hr hsz hc
      by_cases hin : r.id ∈ s.sizeMap.map Prod.fst
      · have : s'.sizeMap = s.sizeMap := by
          rw [h3 hin]
          conv_rhs => rw [← List.map_id s.sizeMap]
          refine List.map_congr_left fun x hx => ?_
          split
          · rename_i e
            rw [hr r rfl, ← e, ← hsz x hx]; rfl
          · rfl
        rw [h2.occ, this, ← h.occ]; exact hc
      · cases ha : admitsBase s.base r with
        | false =>
          rw [h4 hin ha, canInsert_eq]
          exact hc
        | true =>
          obtain ⟨vs, kept, k1, k2, k3, _⟩ := h5 hin ha
          exact k3
  | find r u =>
    cases u with
    | true => simp [Calls] at hop
    | false => exact ⟨_, s, find_false r, h, fun _ _ => rfl, fun x hx => Or.inl hx, fun _ hh => (by cases hh), fun _ _ _ hc => hc⟩
  | remove id =>
    by_cases hin : id ∈ s.sizeMap.map Prod.fst
    · obtain ⟨s', h1, h2, h3, h4, h5⟩ := remove_hit h.toInv0 hin
      refine ⟨true, s', h1, ⟨h2, by rw [h4, h5]; exact h.vt⟩, fun hh => absurd rfl (hh id), ?_, ?_, ?_⟩
      · intro x hx; rw [h3] at hx; exact Or.inl (List.mem_filter.1 hx).1
      · intro id' e; cases e; rw [h3]; simp
      · intro sz _ _ hc
        have := hfil id
        rw [h2.occ, h3]
        rw [h.occ] at hc
        omega
    · exact ⟨false, s, remove_miss hin, h, fun _ _ => rfl, fun x hx => Or.inl hx, fun id' e => by cases e; exact hin, fun _ _ _ hc => hc⟩
  | evict r =>
    by_cases hz : (algo R).nObj s > 0
    · have hne : s.sizeMap ≠ [] := by
        intro e
        have h1 := h.nObj
        rw [e] at h1
        have h2 : (algo R).nObj s = s.base.nObj := rfl
        rw [h2, h1] at hz
        simp at hz
      obtain ⟨t, z, s', h1, h2, _, _, h3, _, _, _, h4⟩ := evict_spec h hne
      have e1 : (algo R).evict s r = .ok s' := h1
      refine ⟨true, s', by simp only [Algo.step, hz, if_true, e1, Res.bind_ok], h2, fun _ => h4, ?_, fun _ hh => (by cases hh), ?_⟩
      · intro x hx; rw [h3] at hx; exact Or.inl (List.mem_filter.1 hx).1
      · intro sz _ _ hc
        have := hfil t.id
        rw [h2.occ, h3]
        rw [h.occ] at hc
        omega
    · exact ⟨false, s, by simp only [Algo.step, hz, if_false], h, fun _ _ => rfl, fun x hx => Or.inl hx, fun _ hh => (by cases hh), fun _ _ _ hc => hc⟩
  | insert r =>
    have hu : r.size % u32 = r.size := Nat.mod_eq_of_lt (by have := hop.2.2; omega)
    have hf : (algo R).find s r false = .ok (decide (r.id ∈ s.sizeMap.map Prod.fst), s) := find_false r
    by_cases hc : decide (r.id ∈ s.sizeMap.map Prod.fst) = false ∧ (algo R).mustEvict s r = false
    · obtain ⟨s', k1, k2, k3, k4, _, k5, _, k6⟩ := insert_spec h.toInv0 hop.2 (by simpa using hc.1)
      have e1 : (algo R).insert s r = .ok s' := k1
      refine ⟨true, s', by simp only [Algo.step, hf, Res.bind_ok, hc, and_self, if_true, e1], ⟨k2, by rw [k3, k4]; exact h.vt⟩, fun _ => k6, ?_,
        fun _ hh => (by cases hh), ?_⟩
      · intro x hx
        rw [k5] at hx
        rcases List.mem_cons.1 hx with rfl | hx
        · exact Or.inr ⟨r, rfl, by rw [hu]⟩
        · exact Or.inl hx
      · intro sz _ _ _
        have h2 := h.occ
        have hm := hc.2
        simp only [Algo.mustEvict, algo, decide_eq_false_iff_not, h.csz, h.mdz, h2] at hm
        rw [k2.occ, k5]
        simp only [charge]
        push_cast
        omega
    · exact ⟨false, s, by simp only [Algo.step, hf, Res.bind_ok]; rw [if_neg hc], h, fun _ _ => rfl, fun x hx => Or.inl hx, fun _ hh => (by cases hh),
        fun _ _ _ hc => hc⟩

theorem run_spec : ∀ (ops : List Op) {s : State}, Inv R cs md s → (∀ op ∈ ops, Calls { upd := false } (Sized md) op) →
    ∃ out s', (algo R).run s ops = .ok (out, s') ∧ Inv R cs md s' ∧
      ((∀ op ∈ ops, ∀ id, op ≠ .remove id) → R = .exact → balance s' = balance s) ∧
      (∀ x ∈ s'.sizeMap, (x ∈ s.sizeMap ∧ Op.remove x.1 ∉ ops) ∨
        ∃ pre op post r, ops = pre ++ op :: post ∧ insertedBy op = some r ∧ r.id = x.1 ∧ r.size % u32 = x.2 ∧ Op.remove x.1 ∉ post) ∧
      (∀ sz : ObjId → Nat, (∀ op ∈ ops, ∀ r, insertedBy op = some r → r.size = sz r.id) → (∀ x ∈ s.sizeMap, x.2 = sz x.1) → s.base.occ ≤ cs →
        s'.base.occ ≤ cs ∧ ∀ x ∈ s'.sizeMap, x.2 = sz x.1) := by
  intro ops
  induction ops with
  | nil => intro s h _; exact ⟨[], s, rfl, h, fun _ _ => rfl, fun x hx => Or.inl ⟨hx, by simp⟩, fun _ _ h1 h2 => ⟨h2, h1⟩⟩
  | cons op ops ih =>
    intro s h ho
    have hop := ho op (by simp)
    obtain ⟨b, s1, h1, h2, h3, h4, h5, h6⟩ := step_spec h hop
    obtain ⟨out, s2, k1, k2, k3, k4, k5⟩ := ih h2 (fun o hh => ho o (by simp [hh]))
    refine ⟨b :: out, s2, by simp [Algo.run, h1, k1], k2, ?_, ?_, ?_⟩
    · intro hn hR
      exact (k3 (fun o hh => hn o (by simp [hh])) hR).trans (h3 (hn op (by simp)) hR)
    · intro x hx
      rcases k4 x hx with ⟨hx1, hx2⟩ | ⟨pre, o, post, r, e, e1⟩
      · rcases h4 x hx1 with hx0 | ⟨r, e1, e2⟩
        · left
          refine ⟨hx0, ?_⟩
          intro hh
          rcases List.mem_cons.1 hh with hh | hh
          · exact h5 x.1 hh.symm (List.mem_map.2 ⟨x, hx1, rfl⟩)
          · exact hx2 hh
        · exact Or.inr ⟨[], op, ops, r, rfl, e1, by rw [e2], by rw [e2], hx2⟩
      · exact Or.inr ⟨op :: pre, o, post, r, by rw [e]; rfl, e1⟩
    · intro sz hr hs hc
      have hr0 := hr op (by simp)
      refine k5 sz (fun o hh => hr o (by simp [hh])) ?_ (h6 sz hr0 hs hc)
      intro x hx
      rcases h4 x hx with hx0 | ⟨r, e1, e2⟩
      · exact hs x hx0
      · have hz := hr0 r e1
        rw [e2]
        show r.size % u32 = sz r.id
        rw [← hz]
        refine Nat.mod_eq_of_lt ?_
        have : Sized md r := by
          cases op with
          | get q => cases e1; exact hop
          | insert q => cases e1; exact hop.2
          | find q u => cases e1
          | remove q => cases e1
          | evict q => cases e1
        have := this.2; omega

theorem reach {s0 s : State} {ops : List Op} {out : List Bool} (hi : Inv R cs md s0) (ho : ∀ op ∈ ops, Calls { upd := false } (Sized md) op)
    (h : Reaches (algo R) s0 ops out s) : Inv R cs md s := by
  obtain ⟨out', s', h1, h2, _⟩ := run_spec ops hi ho
  unfold Reaches at h
  rw [h] at h1
  cases h1
  exact h2

end Verif.LHD
