import Verif.Proof.CacheusLFU
import Verif.Proof.LIRS
import Verif.Proof.LruList
/-!
# The lists of Cacheus: R, SR and the history
-/

namespace Verif.Cacheus
open Verif Spec

theorem ofReq_toReq_size {z : Meta} {o : Obj Meta} (h : o.size < u32) : (Obj.ofReq z o.toReq).size = o.size := Nat.mod_eq_of_lt h

theorem delL_none {id : ObjId} {l : List (Obj Meta)} (h : id ∉ l.map (·.id)) : delL id l = l := by
  unfold delL
  rw [List.filter_eq_self]
  intro o ho
  refine decide_eq_true fun e => h (List.mem_map.2 ⟨o, ho, e⟩)

/-- The three lists hold these objects; those on `R` have lost their marks. -/
structure LRep (cs : Nat) (l : SRLRU) (R SR H : List (Obj Meta)) : Prop where
  r : Rep (cs / 2) 0 l.R R
  sr : Rep (cs / 2) 0 l.SR SR
  h : Rep cs 0 l.H H
  md : l.md = 0
  clean : ∀ o ∈ R, o.mt.demoted = false ∧ o.mt.newObj = false
  nd : (R.map (·.id) ++ SR.map (·.id) ++ H.map (·.id)).Nodup
  szs : ∀ o ∈ R ++ SR ++ H, 0 < o.size ∧ o.size ≤ cs / 2

namespace LRep
variable {cs : Nat} {l : SRLRU} {R SR H : List (Obj Meta)}

theorem small (h : LRep cs l R SR H) {o : Obj Meta} (ho : o ∈ R ++ SR ++ H) : o.size < u32 := by
  rcases List.mem_append.1 ho with ho | ho
  · rcases List.mem_append.1 ho with ho | ho
    · exact h.r.small o ho
    · exact h.sr.small o ho
  · exact h.h.small o ho

theorem disj_rs (h : LRep cs l R SR H) {i : ObjId} (hi : i ∈ R.map (·.id)) : i ∉ SR.map (·.id) := by
  have := (List.nodup_append.1 (List.nodup_append.1 h.nd).1).2.2
  exact fun h2 => this i hi i h2 rfl

theorem disj_h (h : LRep cs l R SR H) {i : ObjId} (hi : i ∈ R.map (·.id) ++ SR.map (·.id)) : i ∉ H.map (·.id) := by
  have := (List.nodup_append.1 h.nd).2.2
  exact fun h2 => this i hi i h2 rfl

/-! ### demotion -/

theorem demote_spec {need : Nat} (hneed : need ≤ cs / 2) : ∀ (n : Nat) {l : SRLRU} {R SR : List (Obj Meta)}, R.length ≤ n → LRep cs l R SR H →
    ∃ l' R' SR', demote need (n + 1) l = .ok l' ∧ LRep cs l' R' SR' H ∧ (cont R', cont SR') = Spec.Cacheus.demote (cs / 2) need n (cont R, cont SR) ∧
      charge 0 (cont R') + need ≤ cs / 2 ∧ (∀ o, R.head? = some o → o.size + need ≤ cs / 2 → R'.head? = some o) ∧
      (cont R' ++ cont SR').Perm (cont R ++ cont SR) := by
  intro n
  induction n with
  | zero =>
    intro l R SR hn h
    obtain rfl : R = [] := List.length_eq_zero_iff.1 (by omega)
    have hocc : l.R.base.occ = 0 := h.r.occ
    refine ⟨l, [], SR, ?_, h, rfl, by simp [charge]; exact hneed, by simp, List.Perm.refl _⟩
    unfold demote
    rw [if_neg]
    rw [hocc, h.r.csz]; omega
  | succ n ih =>
    intro l R SR hn h
    have hocc := h.r.occ
    have hcs := h.r.csz
    by_cases hc : cs / 2 < charge 0 (cont R) + need
    · obtain ⟨R0, o, rfl⟩ : ∃ R0 o, R = R0 ++ [o] := by
        rcases nil_or_last R with rfl | hh
        · simp [charge] at hc; omega
        · exact hh
      have hon : o.size < u32 := h.r.small o (by simp)
      have hid : o.id ∉ SR.map (·.id) := h.disj_rs (by simp)
      have ht := h.r.tailObj rfl
      obtain ⟨SR', i1, i2⟩ := h.sr.insert { demoted := !o.mt.demoted } o.toReq hid (sizeOk_zero _)
      obtain ⟨R', e1, e2⟩ := h.r.evictTail rfl
      have hrep : LRep cs { l with R := R', SR := SR', cDemoted := if o.mt.demoted then l.cDemoted else l.cDemoted + 1 } R0
          (Obj.ofReq { demoted := !o.mt.demoted } o.toReq :: SR) H := by
        refine ⟨e2, i2, h.h, h.md, fun x hx => h.clean x (by simp [hx]), ?_, ?_⟩
        · have := h.nd
          simpa [Obj.ofReq, Obj.toReq] using this
        · intro x hx
          simp only [List.mem_append, List.mem_cons] at hx
          rcases hx with (hx | rfl | hx) | hx
          · exact h.szs x (by simp [hx])
          · rw [ofReq_toReq_size hon]; exact h.szs o (by simp)
          · exact h.szs x (by simp [hx])
          · exact h.szs x (by simp [hx])
      obtain ⟨l', R2, SR2, g1, g2, g3, g4, g5, g6⟩ := ih (by simp at hn; omega) hrep
      have ec : cont (Obj.ofReq { demoted := !o.mt.demoted } o.toReq :: SR) = (o.id, o.size) :: cont SR := by
        rw [cont_cons, ofReq_toReq_size hon]; rfl
      refine ⟨l', R2, SR2, ?_, g2, ?_, g4, ?_, ?_⟩
      · rw [show demote need (n + 1 + 1) l = if l.R.base.occ + need > l.R.base.cacheSize then
          l.R.tailObj >>= fun o =>
          l.SR.insert { demoted := !o.mt.demoted } o.toReq >>= fun SR' =>
          l.R.evictTail >>= fun R' =>
          demote need (n + 1) { l with R := R', SR := SR', cDemoted := if o.mt.demoted then l.cDemoted else l.cDemoted + 1 } else .ok l from rfl]
        rw [if_pos (by rw [hocc, hcs]; omega), ht, Res.bind_ok, i1, Res.bind_ok, e1, Res.bind_ok]
        exact g1
      · rw [g3, ec]
        conv_rhs => unfold Spec.Cacheus.demote
        simp only [cont_append, cont_cons, cont_nil, List.getLast?_append, List.getLast?_singleton, Option.some_or, List.dropLast_concat]
        rw [if_pos]
        rw [bytes_eq_charge]
        simpa using hc
      · intro x hx hxs
        refine g5 x ?_ hxs
        cases R0 with
        | nil =>
          simp at hx
          subst hx
          simp [charge] at hc
          omega
        | cons y R0 => simpa using hx
      · refine g6.trans ?_
        rw [ec]
        simp only [cont_append, cont_cons, cont_nil, List.append_assoc, List.singleton_append]
        exact List.Perm.refl _
    · refine ⟨l, R, SR, ?_, h, ?_, by omega, fun o ho _ => ho, List.Perm.refl _⟩
      · unfold demote
        rw [if_neg]
        rw [hocc, hcs]; omega
      · unfold Spec.Cacheus.demote
        cases hl : (cont R).getLast? with
        | none => rfl
        | some x => simp only; rw [if_neg]; rw [bytes_eq_charge]; exact hc

/-! ### the history -/

theorem trimH_spec (hcs : 0 < cs) : ∀ (n : Nat) {l : SRLRU} {H : List (Obj Meta)}, H.length ≤ n → LRep cs l R SR H →
    ∃ l' H', trimH (n + 1) l = .ok l' ∧ LRep cs l' R SR H' ∧ cont H' = Spec.Cacheus.forget cs n (cont H) ∧ l'.R = l.R ∧ l'.SR = l.SR ∧ H' <+: H ∧ charge 0 (cont H') < cs ∧
      (∀ o, H.head? = some o → H'.head? = some o) := by
  intro n
  induction n with
  | zero =>
    intro l H hn h
    obtain rfl : H = [] := List.length_eq_zero_iff.1 (by omega)
    have hocc : l.H.base.occ = 0 := h.h.occ
    refine ⟨l, [], ?_, h, rfl, rfl, rfl, List.prefix_refl _, by simpa [charge] using hcs, by simp⟩
    unfold trimH
    rw [if_neg]
    rw [hocc, h.h.csz]; omega
  | succ n ih =>
    intro l H hn h
    have hocc := h.h.occ
    have hcz := h.h.csz
    by_cases hc : cs ≤ charge 0 (cont H)
    · obtain ⟨H0, o, rfl⟩ : ∃ H0 o, H = H0 ++ [o] := by
        rcases nil_or_last H with rfl | hh
        · simp [charge] at hc; omega
        · exact hh
      obtain ⟨H', e1, e2⟩ := h.h.evictTail rfl
      have hrep : LRep cs { l with H := H' } R SR H0 := by
        refine ⟨h.r, h.sr, e2, h.md, h.clean, ?_, fun x hx => h.szs x ?_⟩
        · refine h.nd.sublist ?_
          simp
        · simp only [List.mem_append] at hx ⊢
          tauto
      obtain ⟨l', H2, g1, g2, g3, g4, g5, g6, g7, g8⟩ := ih (by simp at hn; omega) hrep
      refine ⟨l', H2, ?_, g2, ?_, g4, g5, g6.trans (List.prefix_append _ _), g7, ?_⟩
      · rw [show trimH (n + 1 + 1) l = if l.H.base.occ ≥ l.H.base.cacheSize then l.H.evictTail >>= fun H' => trimH (n + 1) { l with H := H' } else .ok l from rfl]
        rw [if_pos (by rw [hocc, hcz]; omega), e1, Res.bind_ok]
        exact g1
      · rw [g3]
        conv_rhs => unfold Spec.Cacheus.forget
        rw [if_pos (by rw [bytes_eq_charge]; exact hc)]
        simp only [cont_append, cont_cons, cont_nil, List.dropLast_concat]
      · intro x hx
        refine g8 x ?_
        cases H0 with
        | nil =>
          have := (h.szs o (by simp)).2
          simp [charge] at hc
          omega
        | cons y H0 => simpa using hx
    · refine ⟨l, H, ?_, h, ?_, rfl, rfl, List.prefix_refl _, by omega, fun o ho => ho⟩
      · unfold trimH
        rw [if_neg]
        rw [hocc, hcz]; omega
      · unfold Spec.Cacheus.forget
        rw [if_neg]
        rw [bytes_eq_charge]; exact hc

/-! ### find -/

theorem find_false (h : LRep cs l R SR H) (r : Req) : l.find r false = .ok (decide (r.id ∈ R.map (·.id) ++ SR.map (·.id)), l) := by
  have e : ∀ q : QState Meta, q.findLRU r false = .ok (q.base.lookup r.id, q) := by
    intro q
    unfold QState.findLRU
    rw [findBase_false]
    cases q.base.lookup r.id <;> rfl
  unfold SRLRU.find
  rw [e, Res.bind_ok, e, Res.bind_ok]
  have h1 := h.r.lookup_isSome r.id
  have h2 := h.sr.lookup_isSome r.id
  cases hr : l.R.base.lookup r.id with
  | none =>
    rw [hr] at h1
    have n1 : r.id ∉ R.map (·.id) := by simpa using h1
    cases hs : l.SR.base.lookup r.id with
    | none =>
      rw [hs] at h2
      have n2 : r.id ∉ SR.map (·.id) := by simpa using h2
      rw [decide_eq_false (by simp only [List.mem_append, not_or]; exact ⟨n1, n2⟩)]
    | some o =>
      rw [hs] at h2
      have n2 : r.id ∈ SR.map (·.id) := by simpa using h2
      rw [decide_eq_true (List.mem_append_right _ n2)]
      rfl
  | some o =>
    rw [hr] at h1
    have n1 : r.id ∈ R.map (·.id) := by simpa using h1
    rw [decide_eq_true (List.mem_append_left _ n1)]
    cases hs : l.SR.base.lookup r.id <;> rfl

theorem find_miss (h : LRep cs l R SR H) {r : Req} (hn : r.id ∉ R.map (·.id) ++ SR.map (·.id)) : l.find r true = .ok (false, l) := by
  simp only [List.mem_append, not_or] at hn
  unfold SRLRU.find
  rw [h.r.findLRU_miss true hn.1, Res.bind_ok, h.sr.findLRU_miss true hn.2, Res.bind_ok]

theorem filter_one {L : List (Obj Meta)} (hn : (L.map (·.id)).Nodup) {o : Obj Meta} (ho : o ∈ L) : (cont L).filter (fun x => x.1 = o.id) = [(o.id, o.size)] := by
  have hp := (Rep.charge_del hn ho rfl).map (fun o => (o.id, o.size))
  have h1 := hp.filter (fun x : ObjId × Nat => decide (x.1 = o.id))
  rw [List.map_cons, List.filter_cons_of_pos (by simp)] at h1
  have h2 : ((delL o.id L).map (fun o => (o.id, o.size))).filter (fun x : ObjId × Nat => decide (x.1 = o.id)) = [] := by
    rw [List.filter_eq_nil_iff]
    intro x hx
    obtain ⟨y, hy, rfl⟩ := List.mem_map.1 hx
    have := List.of_mem_filter hy
    simpa using this
  rw [h2] at h1
  exact List.perm_singleton.1 h1

/-- a hit: the object moves to the front of `R` -/
theorem find_hit (h : LRep cs l R SR H) {r : Req} (hm : r.id ∈ R.map (·.id) ++ SR.map (·.id)) :
    ∃ l' R' SR', l.find r true = .ok (true, l') ∧ LRep cs l' R' SR' H ∧ (charge 0 (cont R) ≤ cs / 2 → charge 0 (cont R') ≤ cs / 2) ∧
      (cont R' ++ cont SR').Perm (cont R ++ cont SR) ∧
      (cont R', cont SR') = if r.id ∈ (cont R).ids then (toFront (cont R) r.id, cont SR) else
        Spec.Cacheus.demote (cs / 2) 0 ((cont R).length + 1) ((cont SR).filter (fun x => x.1 = r.id) ++ cont R, Spec.Cacheus.without (cont SR) r.id) := by
  by_cases hr : r.id ∈ R.map (·.id)
  · obtain ⟨R', o, f1, f2, f3, f4⟩ := h.r.findLRU_hit hr
    have hs := h.disj_rs hr
    have hp := Rep.charge_del h.r.nodup f2 f3
    have hpc : (cont (touch r o :: delL r.id R)).Perm (cont R) := (hp.map (fun o : Obj Meta => (o.id, o.size))).symm
    refine ⟨{ l with R := R' }, touch r o :: delL r.id R, SR, ?_, ⟨f4, h.sr, h.h, h.md, ?_, ?_, ?_⟩, ?_, hpc.append_right _, ?_⟩
    · unfold SRLRU.find
      rw [f1, Res.bind_ok, h.sr.findLRU_miss true hs, Res.bind_ok]
    · intro x hx
      rcases List.mem_cons.1 hx with rfl | hx
      · exact h.clean o f2
      · exact h.clean x (List.mem_of_mem_filter hx)
    · refine (List.Perm.nodup_iff ?_).1 h.nd
      refine List.Perm.append_right _ (List.Perm.append_right _ ?_)
      exact hp.map (·.id)
    · intro x hx
      simp only [List.mem_append, List.mem_cons] at hx
      rcases hx with ((rfl | hx) | hx) | hx
      · exact h.szs o (by simp [f2])
      · exact h.szs x (by simp [List.mem_of_mem_filter hx])
      · exact h.szs x (by simp [hx])
      · exact h.szs x (by simp [hx])
    · rw [charge_perm hpc]; exact id
    · rw [if_pos (by rw [cont_ids]; exact hr)]
      rw [toFront, ← f3, filter_one h.r.nodup f2, cont_cons, delL_cont]
      rfl
  · have hs : r.id ∈ SR.map (·.id) := by simpa [hr] using hm
    obtain ⟨SR', o, f1, f2, f3, f4⟩ := h.sr.findLRU_hit hs
    have hon : o.size < u32 := h.sr.small o f2
    have hosz := h.szs o (by simp [f2])
    have e3 : (touch r o).toReq.id = r.id := f3
    obtain ⟨R', i1, i2⟩ := h.r.insert {} (touch r o).toReq (by rw [e3]; exact hr) (sizeOk_zero _)
    obtain ⟨SR2, d1, d2⟩ := f4.remove_hit (id := r.id) (by simp [← f3, touch])
    have edel : delL r.id (touch r o :: delL r.id SR) = delL r.id SR := by
      unfold delL
      rw [List.filter_cons_of_neg (by simp [← f3, touch]), List.filter_filter]
      simp
    rw [edel] at d2
    have hp := Rep.charge_del h.sr.nodup f2 f3
    have eo : (Obj.ofReq ({} : Meta) (touch r o).toReq).size = o.size := ofReq_toReq_size (o := touch r o) hon
    have hrep : LRep cs { l with R := R', SR := SR2 } (Obj.ofReq {} (touch r o).toReq :: R) (delL r.id SR) H := by
      refine ⟨i2, d2, h.h, h.md, ?_, ?_, ?_⟩
      · intro x hx
        rcases List.mem_cons.1 hx with rfl | hx
        · exact ⟨rfl, rfl⟩
        · exact h.clean x hx
      · refine (List.Perm.nodup_iff ?_).1 h.nd
        refine List.Perm.append_right _ ?_
        refine (List.Perm.append_left _ (hp.map (·.id))).trans ?_
        exact List.perm_middle
      · intro x hx
        simp only [List.mem_append, List.mem_cons] at hx
        rcases hx with ((rfl | hx) | hx) | hx
        · rw [eo]; exact hosz
        · exact h.szs x (by simp [hx])
        · exact h.szs x (by simp [List.mem_of_mem_filter hx])
        · exact h.szs x (by simp [hx])
    obtain ⟨l', R2, SR3, g1, g2, g3, g4, g5, g6⟩ := demote_spec (need := 0) (Nat.zero_le _) (R.length + 1) (by simp) hrep
    have ghead := g5 _ (by simp) (show (Obj.ofReq ({} : Meta) (touch r o).toReq).size + 0 ≤ cs / 2 by rw [eo]; omega)
    obtain ⟨R3, rfl⟩ : ∃ R3, R2 = Obj.ofReq {} (touch r o).toReq :: R3 := by
      cases R2 with
      | nil => simp at ghead
      | cons y R3 => simp at ghead; exact ⟨R3, by rw [ghead]⟩
    have ec : cont (Obj.ofReq {} (touch r o).toReq :: R) = (cont SR).filter (fun x => x.1 = r.id) ++ cont R := by
      rw [cont_cons, eo, ← f3, filter_one h.sr.nodup f2]
      rfl
    refine ⟨l', _, SR3, ?_, g2, fun _ => by simpa using g4, ?_, ?_⟩
    · unfold SRLRU.find
      rw [h.r.findLRU_miss true hr, Res.bind_ok, f1, Res.bind_ok]
      simp only [if_true]
      rw [i1, Res.bind_ok, d1, Res.bind_ok]
      have hq : R'.q.length = R.length + 1 := by rw [i2.q]; simp
      rw [hq, g1, Res.bind_ok]
      have hl : l'.R.base.lookup (touch r o).id = some (Obj.ofReq {} (touch r o).toReq) := g2.r.lookup_mem (o := Obj.ofReq {} (touch r o).toReq) (by simp)
      unfold growR
      rw [hl]
      rfl
    · refine g6.trans ?_
      rw [ec]
      have : (cont SR).Perm ((cont SR).filter (fun x => x.1 = r.id) ++ cont (delL r.id SR)) := by
        have h1 : (cont SR).filter (fun x => x.1 = r.id) = [(o.id, o.size)] := by rw [← f3]; exact filter_one h.sr.nodup f2
        rw [h1]
        exact hp.map (fun o : Obj Meta => (o.id, o.size))
      refine (List.Perm.append_right _ List.perm_append_comm).trans ?_
      rw [List.append_assoc]
      exact List.Perm.append_left _ this.symm
    · rw [if_neg (by rw [cont_ids]; exact hr), g3, ec, cont_length, delL_cont]
      rfl

/-! ### insert -/

theorem place_new (h : LRep cs l R SR H) {r : Req} (hn : r.id ∉ R.map (·.id) ++ SR.map (·.id)) (hh : r.id ∉ H.map (·.id)) (hsz : 0 < r.size % u32) (hle : r.size ≤ cs / 2) :
    ∃ l' o, l.place r = .ok l' ∧ LRep cs l' R (o :: SR) H ∧ (o.id, o.size) = (r.id, r.size % u32) := by
  simp only [List.mem_append, not_or] at hn
  obtain ⟨SR', i1, i2⟩ := h.sr.insert { newObj := true } r hn.2 (sizeOk_zero _)
  have hmod := Nat.mod_le r.size u32
  refine ⟨{ l with SR := SR' }, _, ?_, ⟨h.r, i2, h.h, h.md, h.clean, ?_, ?_⟩, rfl⟩
  · unfold SRLRU.place
    rw [h.h.lookup_none.2 hh]
    simp only [i1, Res.bind_ok]
  · rw [List.map_cons]
    refine (List.Perm.nodup_iff (l₁ := r.id :: (R.map (·.id) ++ SR.map (·.id) ++ H.map (·.id))) ?_).1 (List.nodup_cons.2 ⟨?_, h.nd⟩)
    · rw [List.append_assoc, List.append_assoc]
      exact List.perm_middle.symm
    · simp only [List.mem_append, not_or]; exact ⟨⟨hn.1, hn.2⟩, hh⟩
  · intro x hx
    simp only [List.mem_append, List.mem_cons] at hx
    rcases hx with (hx | rfl | hx) | hx
    · exact h.szs x (by simp [hx])
    · exact ⟨hsz, by show r.size % u32 ≤ _; omega⟩
    · exact h.szs x (by simp [hx])
    · exact h.szs x (by simp [hx])

theorem place_old (h : LRep cs l R SR H) {r : Req} (hn : r.id ∉ R.map (·.id) ++ SR.map (·.id)) (hh : r.id ∈ H.map (·.id)) (hsz : 0 < r.size % u32) (hle : r.size ≤ cs / 2) :
    ∃ l' R' SR' o, l.place r = .ok l' ∧ LRep cs l' (o :: R') SR' (delL r.id H) ∧ (o.id, o.size) = (r.id, r.size % u32) ∧
      (cont R', cont SR') = Spec.Cacheus.demote (cs / 2) r.size R.length (cont R, cont SR) ∧ charge 0 (cont R') + r.size ≤ cs / 2 ∧
      (cont R' ++ cont SR').Perm (cont R ++ cont SR) := by
  obtain ⟨H', d1, d2⟩ := h.h.remove_hit hh
  obtain ⟨o0, hl0, _, _⟩ := h.h.lookup_some hh
  have hmod := Nat.mod_le r.size u32
  have hrep : LRep cs { l with H := H' } R SR (delL r.id H) := by
    refine ⟨h.r, h.sr, d2, h.md, h.clean, h.nd.sublist ?_, fun x hx => h.szs x ?_⟩
    · exact List.Sublist.append_left (List.Sublist.map _ List.filter_sublist) _
    · rcases List.mem_append.1 hx with hx | hx
      · exact List.mem_append_left _ hx
      · exact List.mem_append_right _ (List.mem_of_mem_filter hx)
  obtain ⟨l', R2, SR2, g1, g2, g3, g4, g5, g6⟩ := demote_spec (need := r.size) hle R.length (Nat.le_refl _) hrep
  have hids : (R2.map (·.id) ++ SR2.map (·.id)).Perm (R.map (·.id) ++ SR.map (·.id)) := by
    have := g6.map Prod.fst
    rw [List.map_append, List.map_append] at this
    rw [← cont_ids, ← cont_ids, ← cont_ids, ← cont_ids]
    exact this
  have hn2 : r.id ∉ R2.map (·.id) ++ SR2.map (·.id) := fun hm => hn (hids.subset hm)
  have hn3 := hn2
  simp only [List.mem_append, not_or] at hn3
  obtain ⟨R3, i1, i2⟩ := g2.r.insert {} r hn3.1 (sizeOk_zero _)
  have hrep2 : LRep cs { l' with R := R3 } (Obj.ofReq {} r :: R2) SR2 (delL r.id H) := by
    refine ⟨i2, g2.sr, g2.h, g2.md, ?_, ?_, ?_⟩
    · intro x hx
      rcases List.mem_cons.1 hx with rfl | hx
      · exact ⟨rfl, rfl⟩
      · exact g2.clean x hx
    · rw [List.map_cons, List.cons_append, List.cons_append, List.nodup_cons]
      refine ⟨?_, g2.nd⟩
      rw [List.mem_append, not_or]
      refine ⟨hn2, ?_⟩
      show r.id ∉ _
      rw [delL_ids]; simp
    · intro x hx
      simp only [List.cons_append, List.mem_cons] at hx
      rcases hx with rfl | hx
      · exact ⟨hsz, by show r.size % u32 ≤ _; omega⟩
      · exact g2.szs x hx
  refine ⟨{ l' with R := R3 }, R2, SR2, _, ?_, hrep2, rfl, g3, g4, g6⟩
  unfold SRLRU.place
  rw [hl0]
  have hq : l.R.q.length = R.length := by rw [h.r.q]; simp
  have hmd := h.md
  have g1' : demote (r.size + l.md) (l.R.q.length + 1) { l with H := H' } = .ok l' := by
    rw [show r.size + l.md = r.size by rw [hmd]; rfl, hq]; exact g1
  simp only [d1, Res.bind_ok]
  rw [g1', Res.bind_ok, i1, Res.bind_ok]
  have hl : R3.base.lookup r.id = some (Obj.ofReq {} r) := i2.lookup_mem (o := Obj.ofReq {} r) (by simp)
  unfold growSR
  simp only [hl]
  rfl

/-! ### leaving -/

/-- the object `id` has gone to the history -/
structure Gone (cs : Nat) (R SR H : List (Obj Meta)) (id : ObjId) (size : Nat) (l' : SRLRU) (H' : List (Obj Meta)) : Prop where
  rep : LRep cs l' (delL id R) (delL id SR) H'
  past : cont H' = Spec.Cacheus.forget cs (H.length + 1) ((id, size) :: cont H)
  there : ∃ o, o ∈ H' ∧ o.id = id
  sub : ∀ o ∈ H', o.id = id ∨ o ∈ H

theorem leave_rep (h : LRep cs l R SR H) {o : Obj Meta} (ho : o ∈ R ++ SR) (z : Meta) {l1 : SRLRU} (hR : Rep (cs / 2) 0 l1.R (delL o.id R)) (hSR : Rep (cs / 2) 0 l1.SR (delL o.id SR))
    (hH : Rep cs 0 l1.H (Obj.ofReq z o.toReq :: H)) (hmd : l1.md = 0) : LRep cs l1 (delL o.id R) (delL o.id SR) (Obj.ofReq z o.toReq :: H) := by
  have hon : o.size < u32 := h.small (List.mem_append_left _ ho)
  refine ⟨hR, hSR, hH, hmd, fun x hx => h.clean x (List.mem_of_mem_filter hx), ?_, ?_⟩
  · refine (List.Perm.nodup_iff (l₁ := R.map (·.id) ++ SR.map (·.id) ++ H.map (·.id)) ?_).1 h.nd
    have hid : o.id ∈ R.map (·.id) ++ SR.map (·.id) := by rw [← List.map_append]; exact List.mem_map_of_mem ho
    have hnd := (List.nodup_append.1 h.nd).1
    have := List.perm_cons_erase hid
    rw [erase_eq_filter hnd, List.filter_append] at this
    rw [delL_ids, delL_ids, List.map_cons]
    refine (List.Perm.append_right _ this).trans ?_
    exact (List.perm_middle (a := o.id)).symm
  · intro x hx
    simp only [List.mem_append, List.mem_cons] at hx
    rcases hx with (hx | hx) | rfl | hx
    · exact h.szs x (by simp [List.mem_of_mem_filter hx])
    · exact h.szs x (by simp [List.mem_of_mem_filter hx])
    · rw [ofReq_toReq_size hon]; exact h.szs o (List.mem_append_left _ ho)
    · exact h.szs x (by simp [hx])

theorem retire_ok (h : LRep cs l R SR H) {o : Obj Meta} (ho : o ∈ R ++ SR) (keep : Bool) :
    ∃ H', l.H.insert { newObj := o.mt.newObj, demoted := o.mt.demoted && keep } o.toReq = .ok H' ∧ Rep cs 0 H' (Obj.ofReq { newObj := o.mt.newObj, demoted := o.mt.demoted && keep } o.toReq :: H) := by
  refine h.h.insert _ o.toReq ?_ (sizeOk_zero _)
  have hid : o.id ∈ R.map (·.id) ++ SR.map (·.id) := by rw [← List.map_append]; exact List.mem_map_of_mem ho
  exact h.disj_h hid

theorem trim_gone {l1 : SRLRU} (hcs : 0 < cs) {o : Obj Meta} (hon : o.size < u32) {z : Meta} (h : LRep cs l1 (delL o.id R) (delL o.id SR) (Obj.ofReq z o.toReq :: H)) :
    ∃ l2 H2, trimH (l1.H.q.length + 1) l1 = .ok l2 ∧ Gone cs R SR H o.id o.size l2 H2 := by
  have hq : l1.H.q.length = H.length + 1 := by rw [h.h.q]; simp
  rw [hq]
  obtain ⟨l2, H2, g1, g2, g3, g4, g5, g6, g7, g8⟩ := trimH_spec hcs (H.length + 1) (by simp) h
  refine ⟨l2, H2, g1, g2, ?_, ?_, ?_⟩
  · rw [g3, cont_cons, ofReq_toReq_size hon]; rfl
  · have := g8 _ rfl
    cases H2 with
    | nil => simp at this
    | cons y H3 => simp at this; exact ⟨y, by simp, by rw [this]; rfl⟩
  · intro x hx
    rcases List.mem_cons.1 (g6.subset hx) with rfl | hx
    · exact Or.inl rfl
    · exact Or.inr hx

theorem toEvict_spec (h : LRep cs l R SR H) : l.toEvict = if SR = [] then R.getLast?.map (fun o => (Place.r, o.id)) else SR.getLast?.map (fun o => (Place.sr, o.id)) := by
  unfold SRLRU.toEvict
  have hz : l.SR.base.occ = 0 ↔ SR = [] := by
    rw [h.sr.occ]
    constructor
    · intro e
      cases SR with
      | nil => rfl
      | cons o SR =>
        have := (h.szs o (by simp)).1
        simp [charge] at e
        omega
    · rintro rfl; rfl
  by_cases e : SR = []
  · rw [if_pos (hz.2 e), if_pos e, h.r.q, List.getLast?_map, Option.map_map]; rfl
  · rw [if_neg (fun e' => e (hz.1 e')), if_neg e, h.sr.q, List.getLast?_map, Option.map_map]; rfl

/-- the first expert throws out its proposal -/
theorem evict_ok (h : LRep cs l R SR H) (hcs : 0 < cs) {o : Obj Meta} (ho : (if SR = [] then R.getLast? else SR.getLast?) = some o) :
    ∃ l' H', l.evict = .ok l' ∧ Gone cs R SR H o.id o.size l' H' := by
  have hte := h.toEvict_spec
  by_cases e : SR = []
  · subst e
    rw [if_pos rfl] at ho hte
    obtain ⟨R0, rfl⟩ := List.getLast?_eq_some_iff.1 ho
    have hmem : o ∈ (R0 ++ [o]) ++ [] := by simp
    obtain ⟨H1, i1, i2⟩ := h.retire_ok hmem true
    obtain ⟨R', e1, e2⟩ := h.r.evictTail rfl
    have hd : delL o.id (R0 ++ [o]) = R0 := delL_last h.r.nodup
    have hocc : l.SR.base.occ = 0 := h.sr.occ
    have hrep : LRep cs { l with H := H1, R := R', cNew := if o.mt.newObj then l.cNew + 1 else l.cNew, cDemoted := if o.mt.demoted then dec64 l.cDemoted else l.cDemoted }
        (delL o.id (R0 ++ [o])) (delL o.id []) (Obj.ofReq { newObj := o.mt.newObj, demoted := o.mt.demoted && true } o.toReq :: H) := by
      refine h.leave_rep hmem _ ?_ h.sr i2 h.md
      rw [hd]; exact e2
    obtain ⟨l2, H2, t1, t2⟩ := trim_gone hcs (h.small (by simp)) hrep
    refine ⟨l2, H2, ?_, t2⟩
    unfold SRLRU.evict
    rw [hte]
    simp only [List.getLast?_append, List.getLast?_singleton, Option.some_or, Option.map_some, if_true]
    rw [h.r.tailObj rfl, Res.bind_ok]
    unfold SRLRU.retire
    rw [i1, Res.bind_ok, Res.bind_ok]
    rw [if_neg (by show ¬ l.SR.base.occ > 0; rw [hocc]; omega)]
    show (l.R.evictTail >>= _) >>= _ = _
    rw [e1, Res.bind_ok, Res.bind_ok]
    exact t1
  · rw [if_neg e] at ho hte
    obtain ⟨S0, rfl⟩ := List.getLast?_eq_some_iff.1 ho
    have hmem : o ∈ R ++ (S0 ++ [o]) := by simp
    have hnr : o.id ∉ R.map (·.id) := fun hr => h.disj_rs hr (by simp)
    obtain ⟨H1, i1, i2⟩ := h.retire_ok hmem true
    obtain ⟨S', e1, e2⟩ := h.sr.evictTail rfl
    have hd : delL o.id (S0 ++ [o]) = S0 := delL_last h.sr.nodup
    have hocc : l.SR.base.occ > 0 := by
      rw [h.sr.occ]
      have := (h.szs o (by simp)).1
      rw [cont_append, charge_app]
      simp [charge]; omega
    have hrep : LRep cs { l with H := H1, SR := S', cNew := if o.mt.newObj then l.cNew + 1 else l.cNew, cDemoted := if o.mt.demoted then dec64 l.cDemoted else l.cDemoted }
        (delL o.id R) (delL o.id (S0 ++ [o])) (Obj.ofReq { newObj := o.mt.newObj, demoted := o.mt.demoted && true } o.toReq :: H) := by
      refine h.leave_rep hmem _ ?_ ?_ i2 h.md
      · rw [delL_none hnr]; exact h.r
      · rw [hd]; exact e2
    obtain ⟨l2, H2, t1, t2⟩ := trim_gone hcs (h.small (by simp)) hrep
    refine ⟨l2, H2, ?_, t2⟩
    unfold SRLRU.evict
    rw [hte]
    simp only [List.getLast?_append, List.getLast?_singleton, Option.some_or, Option.map_some]
    rw [if_neg (by decide), h.sr.tailObj rfl, Res.bind_ok]
    unfold SRLRU.retire
    rw [i1, Res.bind_ok, Res.bind_ok]
    rw [if_pos (show l.SR.base.occ > 0 from hocc)]
    show (l.SR.evictTail >>= _) >>= _ = _
    rw [e1, Res.bind_ok, Res.bind_ok]
    exact t1

theorem remove_miss (h : LRep cs l R SR H) {id : ObjId} (hn : id ∉ R.map (·.id) ++ SR.map (·.id)) : l.remove id = .ok (false, l) := by
  simp only [List.mem_append, not_or] at hn
  unfold SRLRU.remove
  rw [h.r.lookup_none.2 hn.1, h.sr.lookup_none.2 hn.2]

theorem remove_ok (h : LRep cs l R SR H) (hcs : 0 < cs) {o : Obj Meta} (ho : o ∈ R ++ SR) :
    ∃ l' H', l.remove o.id = .ok (true, l') ∧ Gone cs R SR H o.id o.size l' H' := by
  have hon := h.small (List.mem_append_left _ ho)
  obtain ⟨H1, i1, i2⟩ := h.retire_ok ho false
  by_cases hr : o.id ∈ R.map (·.id)
  · have hor : o ∈ R := by
      rcases List.mem_append.1 ho with hh | hh
      · exact hh
      · exact absurd (List.mem_map_of_mem hh) (h.disj_rs hr)
    have hl := h.r.lookup_mem hor
    obtain ⟨R', d1, d2⟩ := h.r.remove_hit hr
    have hrep : LRep cs { l with H := H1, R := R', cNew := if o.mt.newObj then l.cNew + 1 else l.cNew, cDemoted := if o.mt.demoted then dec64 l.cDemoted else l.cDemoted }
        (delL o.id R) (delL o.id SR) (Obj.ofReq { newObj := o.mt.newObj, demoted := o.mt.demoted && false } o.toReq :: H) := by
      refine h.leave_rep ho _ d2 ?_ i2 h.md
      rw [delL_none (h.disj_rs hr)]; exact h.sr
    obtain ⟨l2, H2, t1, t2⟩ := trim_gone hcs hon hrep
    refine ⟨l2, H2, ?_, t2⟩
    unfold SRLRU.remove
    rw [hl]
    simp only
    unfold SRLRU.retire
    rw [i1, Res.bind_ok, Res.bind_ok]
    show l.R.remove o.id >>= _ = _
    rw [d1, Res.bind_ok]
    show trimH (H1.q.length + 1) _ >>= _ = _
    rw [show trimH (H1.q.length + 1) { l with H := H1, R := R', cNew := if o.mt.newObj then l.cNew + 1 else l.cNew, cDemoted := if o.mt.demoted then dec64 l.cDemoted else l.cDemoted } = .ok l2 from t1]
    rfl
  · have hos : o ∈ SR := by
      rcases List.mem_append.1 ho with hh | hh
      · exact absurd (List.mem_map_of_mem hh) hr
      · exact hh
    have hl := h.sr.lookup_mem hos
    obtain ⟨S', d1, d2⟩ := h.sr.remove_hit (List.mem_map_of_mem hos)
    have hrep : LRep cs { l with H := H1, SR := S', cNew := if o.mt.newObj then l.cNew + 1 else l.cNew, cDemoted := if o.mt.demoted then dec64 l.cDemoted else l.cDemoted }
        (delL o.id R) (delL o.id SR) (Obj.ofReq { newObj := o.mt.newObj, demoted := o.mt.demoted && false } o.toReq :: H) := by
      refine h.leave_rep ho _ ?_ d2 i2 h.md
      rw [delL_none hr]; exact h.r
    obtain ⟨l2, H2, t1, t2⟩ := trim_gone hcs hon hrep
    refine ⟨l2, H2, ?_, t2⟩
    unfold SRLRU.remove
    rw [h.r.lookup_none.2 hr, hl]
    simp only
    unfold SRLRU.retire
    rw [i1, Res.bind_ok, Res.bind_ok]
    show l.SR.remove o.id >>= _ = _
    rw [d1, Res.bind_ok]
    show trimH (H1.q.length + 1) _ >>= _ = _
    rw [show trimH (H1.q.length + 1) { l with H := H1, SR := S', cNew := if o.mt.newObj then l.cNew + 1 else l.cNew, cDemoted := if o.mt.demoted then dec64 l.cDemoted else l.cDemoted } = .ok l2 from t1]
    rfl

end LRep
end Verif.Cacheus
