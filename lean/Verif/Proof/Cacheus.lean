import Verif.Proof.CacheusLists
/-!
# Cacheus refines its reference machine: the lists and the frequency classes together
-/

namespace Verif.Cacheus
open Verif Spec
open Verif.Spec.Cacheus (St without note leave limitPast spill oldest rare)
variable {W : Type}

/-- The `SR_LRU` and the `CR_LFU` hold what the reference machine says. -/
structure Rel (cs : Nat) (l : SRLRU) (f : CRLFU) (R SR H : List (Obj Meta)) (t : St W) : Prop where
  lr : LRep cs l R SR H
  keep : t.keep = cont R
  trial : t.trial = cont SR
  past : t.past = cont H
  lf : FRep f (t.keep ++ t.trial) t.order t.cnt
  hf : ∀ o ∈ H, o.mt.freq = t.cnt o.id

namespace Rel
variable {cs : Nat} {l : SRLRU} {f : CRLFU} {R SR H : List (Obj Meta)} {t : St W}

theorem mem_order (h : Rel cs l f R SR H t) {i : ObjId} : i ∈ t.order ↔ i ∈ R.map (·.id) ++ SR.map (·.id) := by
  rw [h.lf.op.mem_iff, h.keep, h.trial, ids_append, cont_ids, cont_ids]

theorem order_nil (h : Rel cs l f R SR H t) : t.order = [] ↔ R = [] ∧ SR = [] := by
  have := h.lf.op.length_eq
  rw [h.keep, h.trial] at this
  simp only [Contents.ids, List.length_map, List.length_append, cont_length] at this
  rw [← List.length_eq_zero_iff, ← List.length_eq_zero_iff (l := R), ← List.length_eq_zero_iff (l := SR)]
  omega

theorem mem_contents (h : Rel cs l f R SR H t) (i : ObjId) : i ∈ t.contents.ids ↔ i ∈ R.map (·.id) ++ SR.map (·.id) := by
  unfold Spec.Cacheus.St.contents
  rw [h.keep, h.trial, ids_append, cont_ids, cont_ids]

/-- an object has left both lists for the history, and the classes with its count stored -/
theorem gone (h : Rel cs l f R SR H t) {l' : SRLRU} {H' : List (Obj Meta)} {f' : CRLFU} {id : ObjId} {size : Nat} (hg : LRep.Gone cs R SR H id size l' H')
    (hf' : FRep f' ((t.keep ++ t.trial).filter (fun x => x.1 ≠ id)) (t.order.filter (fun i => i ≠ id)) t.cnt) :
    Rel cs { l' with H := l'.H.modify id (fun o => { o with mt := { o.mt with freq := t.cnt id } }) } f' (delL id R) (delL id SR)
      (modL id (fun o => { o with mt := { o.mt with freq := t.cnt id } }) H') (limitPast cs (leave t (id, size))) := by
  have hm := hg.rep.h.modify id (fun o => { o with mt := { o.mt with freq := t.cnt id } }) (fun _ => rfl) (fun _ => rfl)
  refine ⟨⟨hg.rep.r, hg.rep.sr, hm, hg.rep.md, hg.rep.clean, ?_, ?_⟩, ?_, ?_, ?_, ?_, ?_⟩
  · rw [modL_ids id (fun o : Obj Meta => { o with mt := { o.mt with freq := t.cnt id } }) (fun _ => rfl)]; exact hg.rep.nd
  · intro x hx
    rcases List.mem_append.1 hx with hx | hx
    · exact hg.rep.szs x (List.mem_append_left _ hx)
    · simp only [modL, List.mem_map] at hx
      obtain ⟨y, hy, rfl⟩ := hx
      have := hg.rep.szs y (List.mem_append_right _ hy)
      split <;> exact this
  · show without t.keep id = _
    rw [h.keep, delL_cont]; rfl
  · show without t.trial id = _
    rw [h.trial, delL_cont]; rfl
  · show Spec.Cacheus.forget cs ((id, size) :: t.past).length ((id, size) :: t.past) = _
    rw [modL_cont id (fun o : Obj Meta => { o with mt := { o.mt with freq := t.cnt id } }) (fun _ => rfl) (fun _ => rfl), hg.past, h.past, List.length_cons, cont_length]
  · show FRep f' (without t.keep id ++ without t.trial id) _ _
    rw [List.filter_append] at hf'
    exact hf'
  · intro x hx
    simp only [modL, List.mem_map] at hx
    obtain ⟨y, hy, rfl⟩ := hx
    show _ = t.cnt _
    by_cases e : y.id = id
    · rw [if_pos e]
      show t.cnt id = t.cnt y.id
      rw [e]
    · rw [if_neg e]
      rcases hg.sub y hy with hh | hh
      · exact absurd hh e
      · exact h.hf y hh

/-! ### spilling -/

theorem spill_spec : ∀ (n : Nat) {l : SRLRU} {f : CRLFU} {SR H : List (Obj Meta)} {t : St W}, SR.length ≤ n → Rel cs l f R SR H t →
    ∃ l' f' SR' H', overflow (n + 1) l f = .ok (l', f') ∧ Rel cs l' f' R SR' H' (spill (cs / 2) n t) ∧ charge 0 (cont SR') ≤ cs / 2 ∧ SR' <+: SR ∧
      (∀ o, SR.head? = some o → SR'.head? = some o) := by
  intro n
  induction n with
  | zero =>
    intro l f SR H t hn h
    obtain rfl : SR = [] := List.length_eq_zero_iff.1 (by omega)
    have hocc : l.SR.base.occ = 0 := h.lr.sr.occ
    refine ⟨l, f, [], H, ?_, h, by simp [charge], List.prefix_refl _, by simp⟩
    unfold overflow
    rw [if_neg]
    rw [hocc, h.lr.sr.csz]; omega
  | succ n ih =>
    intro l f SR H t hn h
    have hocc := h.lr.sr.occ
    have hcz := h.lr.sr.csz
    by_cases hc : cs / 2 < charge 0 (cont SR)
    · obtain ⟨S0, o, rfl⟩ : ∃ S0 o, SR = S0 ++ [o] := by
        rcases nil_or_last SR with rfl | hh
        · simp [charge] at hc
        · exact hh
      have hmem : o ∈ R ++ (S0 ++ [o]) := by simp
      have hon : o.size < u32 := h.lr.small (by simp)
      have hnr : o.id ∉ R.map (·.id) := fun hr => h.lr.disj_rs hr (by simp)
      have hnh : o.id ∉ H.map (·.id) := h.lr.disj_h (by simp)
      have ht := h.lr.sr.tailObj rfl
      obtain ⟨H1, i1, i2⟩ := h.lr.h.insert {} o.toReq hnh (sizeOk_zero _)
      obtain ⟨S', e1, e2⟩ := h.lr.sr.evictTail rfl
      have hd : delL o.id (S0 ++ [o]) = S0 := delL_last h.lr.sr.nodup
      have hlk : (H1.base.lookup o.id).isSome = true := by rw [i2.lookup_isSome]; simp [Obj.ofReq, Obj.toReq]
      obtain ⟨f', r1, r2⟩ := h.lf.remove_ok (H := H1) (id := o.id) (h.mem_order.2 (by simp)) hlk
      have hrep : LRep cs { l with SR := S', H := H1, cNew := if o.mt.newObj then l.cNew + 1 else l.cNew, cDemoted := if o.mt.demoted then dec64 l.cDemoted else l.cDemoted }
          (delL o.id R) (delL o.id (S0 ++ [o])) (Obj.ofReq {} o.toReq :: H) := by
        refine h.lr.leave_rep hmem _ ?_ ?_ i2 h.lr.md
        · rw [delL_none hnr]; exact h.lr.r
        · rw [hd]; exact e2
      rw [hd, delL_none hnr] at hrep
      have hH2 := (hrep.h.modify o.id (fun y => { y with mt := { y.mt with freq := t.cnt o.id } }) (fun _ => rfl) (fun _ => rfl)).modify o.id
        (fun y => { y with mt := { y.mt with newObj := o.mt.newObj } }) (fun _ => rfl) (fun _ => rfl)
      generalize hHn : modL o.id (fun y : Obj Meta => { y with mt := { y.mt with newObj := o.mt.newObj } }) (modL o.id (fun y => { y with mt := { y.mt with freq := t.cnt o.id } }) (Obj.ofReq {} o.toReq :: H)) = Hn at hH2
      have hids : Hn.map (·.id) = o.id :: H.map (·.id) := by
        rw [← hHn, modL_ids o.id (fun y : Obj Meta => { y with mt := { y.mt with newObj := o.mt.newObj } }) (fun _ => rfl), modL_ids o.id (fun y : Obj Meta => { y with mt := { y.mt with freq := t.cnt o.id } }) (fun _ => rfl)]; rfl
      have hcont : cont Hn = (o.id, o.size) :: cont H := by
        rw [← hHn, modL_cont o.id (fun y : Obj Meta => { y with mt := { y.mt with newObj := o.mt.newObj } }) (fun _ => rfl) (fun _ => rfl), modL_cont o.id (fun y : Obj Meta => { y with mt := { y.mt with freq := t.cnt o.id } }) (fun _ => rfl) (fun _ => rfl), cont_cons, ofReq_toReq_size hon]; rfl
      have hHm : ∀ x ∈ Hn, (x.id = o.id ∧ x.size = o.size ∧ x.mt.freq = t.cnt o.id) ∨ x ∈ H := by
        intro x hx
        rw [← hHn] at hx
        simp only [modL, List.map_map, List.mem_map, Function.comp] at hx
        obtain ⟨y, hy, rfl⟩ := hx
        rcases List.mem_cons.1 hy with rfl | hy
        · left
          have : (Obj.ofReq ({} : Meta) o.toReq).id = o.id := rfl
          simp only [this, if_true]
          exact ⟨trivial, ofReq_toReq_size hon, trivial⟩
        · right
          have hne : y.id ≠ o.id := fun e => hnh (by rw [← e]; exact List.mem_map_of_mem hy)
          simp only [if_neg hne]
          exact hy
      have hrel : Rel cs { l with SR := S', H := (H1.modify o.id (fun y => { y with mt := { y.mt with freq := t.cnt o.id } })).modify o.id (fun y => { y with mt := { y.mt with newObj := o.mt.newObj } })
                                  cNew := if o.mt.newObj then l.cNew + 1 else l.cNew, cDemoted := if o.mt.demoted then dec64 l.cDemoted else l.cDemoted } f' R S0 Hn
          (leave t (o.id, o.size)) := by
        refine ⟨⟨h.lr.r, e2, hH2, h.lr.md, h.lr.clean, ?_, ?_⟩, ?_, ?_, ?_, ?_, ?_⟩
        · rw [hids]; exact hrep.nd
        · intro x hx
          rcases List.mem_append.1 hx with hx | hx
          · exact hrep.szs x (List.mem_append_left _ hx)
          · rcases hHm x hx with ⟨_, hh, _⟩ | hh
            · rw [hh]; exact h.lr.szs o (by simp)
            · exact hrep.szs x (by simp [hh])
        · show without t.keep o.id = _
          rw [h.keep, without, ← delL_cont, delL_none hnr]
        · show without t.trial o.id = _
          rw [h.trial, without, ← delL_cont, hd]
        · show (o.id, o.size) :: t.past = _
          rw [hcont, h.past]
        · show FRep f' (without t.keep o.id ++ without t.trial o.id) _ _
          rw [List.filter_append] at r2
          exact r2
        · intro x hx
          show _ = t.cnt x.id
          rcases hHm x hx with ⟨h1, _, h3⟩ | hh
          · rw [h1, h3]
          · exact h.hf x hh
      obtain ⟨l', f2, SR2, H2, g1, g2, g3, g4, g5⟩ := ih (by simp at hn; omega) hrel
      refine ⟨l', f2, SR2, H2, ?_, ?_, g3, g4.trans (List.prefix_append _ _), ?_⟩
      · unfold overflow
        rw [if_pos (by rw [hocc, hcz]; omega), ht, Res.bind_ok, i1, Res.bind_ok, r1, Res.bind_ok, e1, Res.bind_ok]
        exact g1
      · have et : t.trial.getLast? = some (o.id, o.size) := by rw [h.trial]; simp
        have eb : cs / 2 < bytes 0 t.trial := by rw [h.trial, bytes_eq_charge]; exact hc
        have : spill (cs / 2) (n + 1) t = spill (cs / 2) n (leave t (o.id, o.size)) := by
          conv_lhs => unfold spill
          rw [et]
          simp only
          rw [if_pos eb]
        rw [this]
        exact g2
      · intro x hx
        refine g5 x ?_
        cases S0 with
        | nil =>
          have := (h.lr.szs o (by simp)).2
          simp [charge] at hc
          omega
        | cons y S0 => simpa using hx
    · refine ⟨l, f, SR, H, ?_, ?_, by omega, List.prefix_refl _, fun o ho => ho⟩
      · unfold overflow
        rw [if_neg]
        rw [hocc, hcz]; omega
      · have : spill (cs / 2) (n + 1) t = t := by
          unfold spill
          cases hl : t.trial.getLast? with
          | none => rfl
          | some x =>
            simp only
            rw [if_neg]
            rw [h.trial, bytes_eq_charge]; exact hc
        rw [this]; exact h

theorem trim_spec (hcs : 0 < cs) (h : Rel cs l f R SR H t) :
    ∃ l' H', trimH (l.H.q.length + 1) l = .ok l' ∧ Rel cs l' f R SR H' (limitPast cs t) := by
  have hq : l.H.q.length = H.length := by rw [h.lr.h.q]; simp
  rw [hq]
  obtain ⟨l', H', g1, g2, g3, g4, g5, g6, g7, g8⟩ := LRep.trimH_spec hcs H.length (Nat.le_refl _) h.lr
  refine ⟨l', H', g1, g2, h.keep, h.trial, ?_, h.lf, fun o ho => h.hf o (g6.subset ho)⟩
  show Spec.Cacheus.forget cs t.past.length t.past = _
  rw [g3, h.past, cont_length]

/-! ### insert -/

theorem loadFreq_eq (h : Rel cs l f R SR H t) (id : ObjId) : loadFreq l.H id = if id ∈ t.past.ids then t.cnt id + 1 else 1 := by
  unfold loadFreq
  cases hl : l.H.base.lookup id with
  | none =>
    have := h.lr.h.lookup_none.1 hl
    rw [if_neg (by rw [h.past, cont_ids]; exact this)]
  | some o =>
    obtain ⟨h1, h2⟩ := h.lr.h.mem_lookup hl
    rw [if_pos (by rw [h.past, cont_ids]; exact List.mem_map.2 ⟨o, h1, h2⟩)]
    simp only
    rw [h.hf o h1, h2]

theorem insert_ok (hcs : 0 < cs) (h : Rel cs l f R SR H t) (hemp : t.order = [] → f.minFreq = none ∨ t.past = []) {r : Req} (hn : r.id ∉ R.map (·.id) ++ SR.map (·.id)) (hsz : 0 < r.size % u32)
    (hle : r.size ≤ cs / 2) :
    ∃ f1 l' f' R' SR' H', f.insert l.H r = .ok f1 ∧ l.insert f1 r = .ok (l', f') ∧ Rel cs l' f' R' SR' H' (Spec.Cacheus.insert cs t r) ∧ (Spec.Cacheus.insert cs t r).order ≠ [] ∧
      (charge 0 (cont R) ≤ cs / 2 → charge 0 (cont R') ≤ cs / 2) ∧ (cont R' ++ cont SR').Subperm ((r.id, r.size % u32) :: (cont R ++ cont SR)) := by
  have hmod := Nat.mod_le r.size u32
  have hk := h.loadFreq_eq r.id
  have hno : r.id ∉ t.order := fun hm => hn (h.mem_order.1 hm)
  obtain ⟨f1, i1, i2⟩ := h.lf.insert_ok (H := l.H) (r := r) hno (fun e => (hemp e).imp id (fun e' => by rw [hk, e']; rfl))
    (by rw [hk]; split <;> omega)
  -- after `place`
  suffices hpl : ∃ l1 R1 SR1 H1 t1, l.place r = .ok l1 ∧ Rel cs l1 f1 R1 SR1 H1 t1 ∧ Spec.Cacheus.insert cs t r = limitPast cs (spill (cs / 2) t1.trial.length t1) ∧
      (charge 0 (cont R) ≤ cs / 2 → charge 0 (cont R1) ≤ cs / 2) ∧ (cont R1 ++ cont SR1).Perm ((r.id, r.size % u32) :: (cont R ++ cont SR)) ∧ (R1 ≠ [] ∨ SR1 ≠ []) by
    obtain ⟨l1, R1, SR1, H1, t1, p1, p2, p3, p4, p5, p6⟩ := hpl
    obtain ⟨l2, f2, SR2, H2, g1, g2, g3, g4, g5⟩ := p2.spill_spec SR1.length (Nat.le_refl _)
    obtain ⟨l3, H3, k1, k2⟩ := g2.trim_spec hcs
    have hq : l1.SR.q.length = SR1.length := by rw [p2.lr.sr.q]; simp
    have ht1 : t1.trial.length = SR1.length := by rw [p2.trial, cont_length]
    rw [p3, ht1]
    refine ⟨f1, l3, f2, R1, SR2, H3, i1, ?_, k2, ?_, p4, ?_⟩
    · unfold SRLRU.insert
      rw [p1, Res.bind_ok, hq, g1, Res.bind_ok, k1, Res.bind_ok]
    · intro e
      have := k2.order_nil.1 e
      rcases p6 with hh | hh
      · exact hh this.1
      · cases SR1 with
        | nil => exact hh rfl
        | cons y S =>
          have := g5 y rfl
          rw [(k2.order_nil.1 e).2] at this
          cases this
    · refine List.Subperm.trans ?_ p5.subperm
      refine List.Sublist.subperm (List.Sublist.append_left ?_ _)
      exact g4.sublist.map _
  have hnle : ¬ cs / 2 < r.size := by omega
  by_cases hh : r.id ∈ H.map (·.id)
  · have hpast : r.id ∈ t.past.ids := by rw [h.past, cont_ids]; exact hh
    obtain ⟨l1, R1, SR1, o, p1, p2, p3, p4, p5, p6⟩ := h.lr.place_old hn hh hsz hle
    rw [hk, if_pos hpast] at i2
    have hp : ((o.id, o.size) :: (cont R1 ++ cont SR1)).Perm ((r.id, r.size % u32) :: (cont R ++ cont SR)) := by rw [p3]; exact p6.cons _
    refine ⟨l1, o :: R1, SR1, delL r.id H, { t with past := without t.past r.id, keep := (r.id, r.size % u32) :: cont R1, trial := cont SR1, order := r.id :: t.order, cnt := note t.cnt r.id (t.cnt r.id + 1) },
      p1, ⟨p2, ?_, rfl, ?_, ?_, ?_⟩, ?_, fun _ => ?_, hp, Or.inl (by simp)⟩
    · show _ :: cont R1 = _
      rw [cont_cons, p3]
    · show without t.past r.id = _
      rw [delL_cont, h.past]; rfl
    · refine i2.perm ?_
      rw [h.keep, h.trial]
      exact (p6.symm).cons _
    · intro x hx
      have hx' := List.mem_of_mem_filter hx
      have hne : x.id ≠ r.id := by have := List.of_mem_filter hx; simpa using this
      show _ = note t.cnt r.id (t.cnt r.id + 1) x.id
      rw [note_ne hne]; exact h.hf x hx'
    · unfold Spec.Cacheus.insert
      rw [if_neg hnle]
      simp only
      rw [if_pos hpast, h.keep, h.trial, cont_length, ← p4]
    · rw [cont_cons, p3]
      simp only [charge]
      omega
  · have hpast : r.id ∉ t.past.ids := by rw [h.past, cont_ids]; exact hh
    obtain ⟨l1, o, p1, p2, p3⟩ := h.lr.place_new hn hh hsz hle
    rw [hk, if_neg hpast] at i2
    refine ⟨l1, R, o :: SR, H, { t with trial := (r.id, r.size % u32) :: t.trial, order := r.id :: t.order, cnt := note t.cnt r.id 1 },
      p1, ⟨p2, h.keep, ?_, h.past, ?_, ?_⟩, ?_, id, ?_, Or.inr (by simp)⟩
    · show _ :: t.trial = _
      rw [cont_cons, p3, h.trial]
    · exact i2.perm List.perm_middle.symm
    · intro x hx
      have hne : x.id ≠ r.id := fun e => hh (by rw [← e]; exact List.mem_map_of_mem hx)
      show _ = note t.cnt r.id 1 x.id
      rw [note_ne hne]; exact h.hf x hx
    · unfold Spec.Cacheus.insert
      rw [if_neg hnle]
      simp only
      rw [if_neg hpast]
    · rw [cont_cons, p3]; exact List.perm_middle

/-! ### find -/

theorem find_hit (h : Rel cs l f R SR H t) {r : Req} (hm : r.id ∈ R.map (·.id) ++ SR.map (·.id)) :
    ∃ l' f' R' SR', l.find r true = .ok (true, l') ∧ f.find r true = .ok f' ∧ Rel cs l' f' R' SR' H (Spec.Cacheus.hit cs t r.id) ∧ (charge 0 (cont R) ≤ cs / 2 → charge 0 (cont R') ≤ cs / 2) ∧
      (cont R' ++ cont SR').Perm (cont R ++ cont SR) := by
  obtain ⟨l', R', SR', g1, g2, g3, g4, g5⟩ := h.lr.find_hit hm
  obtain ⟨f', k1, k2⟩ := h.lf.find_hit (r := r) (h.mem_order.2 hm)
  have ek : (Spec.Cacheus.hit cs t r.id).keep = cont R' ∧ (Spec.Cacheus.hit cs t r.id).trial = cont SR' := by
    unfold Spec.Cacheus.hit
    simp only
    rw [h.keep, h.trial]
    by_cases hr : r.id ∈ (cont R).ids
    · rw [if_pos hr] at g5 ⊢
      injection g5 with h1 h2
      exact ⟨h1.symm, by rw [h2]⟩
    · rw [if_neg hr] at g5 ⊢
      simp only
      rw [← g5]
      exact ⟨rfl, rfl⟩
  have eo : (Spec.Cacheus.hit cs t r.id).order = r.id :: t.order.filter (fun i => i ≠ r.id) ∧ (Spec.Cacheus.hit cs t r.id).cnt = note t.cnt r.id (t.cnt r.id + 1) ∧
      (Spec.Cacheus.hit cs t r.id).past = t.past := by
    unfold Spec.Cacheus.hit
    simp only
    split <;> exact ⟨rfl, rfl, rfl⟩
  refine ⟨l', f', R', SR', g1, k1, ⟨g2, ek.1, ek.2, ?_, ?_, ?_⟩, g3, g4⟩
  · rw [eo.2.2]; exact h.past
  · rw [ek.1, ek.2, eo.1, eo.2.1]
    refine k2.perm ?_
    rw [h.keep, h.trial]
    exact g4.symm
  · intro x hx
    have hne : x.id ≠ r.id := by
      rintro e
      exact h.lr.disj_h hm (by rw [← e]; exact List.mem_map_of_mem hx)
    rw [eo.2.1, note_ne hne]
    exact h.hf x hx

theorem find_miss (h : Rel cs l f R SR H t) {r : Req} (hm : r.id ∉ R.map (·.id) ++ SR.map (·.id)) : l.find r true = .ok (false, l) ∧ f.find r true = .ok f :=
  ⟨h.lr.find_miss hm, h.lf.find_miss (fun hh => hm (h.mem_order.1 hh))⟩

/-! ### the experts -/

theorem oldest_eq (h : Rel cs l f R SR H t) : oldest t = (if SR = [] then R.getLast? else SR.getLast?).map (fun o => (o.id, o.size)) := by
  unfold oldest
  rw [h.keep, h.trial]
  have : cont SR = [] ↔ SR = [] := List.map_eq_nil_iff
  by_cases e : SR = []
  · rw [if_pos (this.2 e), if_pos e]; exact List.getLast?_map ..
  · rw [if_neg (fun e' => e (this.1 e')), if_neg e]; exact List.getLast?_map ..

/-- both experts throw out the same object -/
theorem evict_both (hcs : 0 < cs) (h : Rel cs l f R SR H t) {o : Obj Meta} (ho : (if SR = [] then R.getLast? else SR.getLast?) = some o) (hr : rare t = some o.id) :
    ∃ l' f' H', l.evict = .ok l' ∧ f.evict l'.H = .ok (f', H') ∧ (∃ R' SR' Hs, Rel cs { l' with H := H' } f' R' SR' Hs (limitPast cs (leave t (o.id, o.size))) ∧ (cont R').Sublist (cont R) ∧ (cont SR').Sublist (cont SR)) ∧
      ((leave t (o.id, o.size)).order = [] → f'.minFreq = none) := by
  obtain ⟨l', H', e1, e2⟩ := h.lr.evict_ok hcs ho
  have hlk : (l'.H.base.lookup o.id).isSome = true := by
    rw [e2.rep.h.lookup_isSome]
    obtain ⟨y, hy, e⟩ := e2.there
    exact decide_eq_true (List.mem_map.2 ⟨y, hy, e⟩)
  obtain ⟨f', k1, k2, k3⟩ := h.lf.evict_ok (H := l'.H) hr hlk
  exact ⟨l', f', _, e1, k1, ⟨_, _, _, h.gone e2 k2, by rw [delL_cont]; exact List.filter_sublist, by rw [delL_cont]; exact List.filter_sublist⟩, k3⟩

/-- the first expert throws out its proposal, the second removes it -/
theorem evict_first (hcs : 0 < cs) (h : Rel cs l f R SR H t) {o : Obj Meta} (ho : (if SR = [] then R.getLast? else SR.getLast?) = some o) :
    ∃ l' f' H', l.evict = .ok l' ∧ f.remove l'.H o.id = .ok (true, f', H') ∧
      (∃ R' SR' Hs, Rel cs { l' with H := H' } f' R' SR' Hs (limitPast cs (leave t (o.id, o.size))) ∧ (cont R').Sublist (cont R) ∧ (cont SR').Sublist (cont SR)) := by
  obtain ⟨l', H', e1, e2⟩ := h.lr.evict_ok hcs ho
  have hlk : (l'.H.base.lookup o.id).isSome = true := by
    rw [e2.rep.h.lookup_isSome]
    obtain ⟨y, hy, e⟩ := e2.there
    exact decide_eq_true (List.mem_map.2 ⟨y, hy, e⟩)
  have hmem : o.id ∈ t.order := by
    rw [h.mem_order]
    split at ho
    · exact List.mem_append_left _ (List.mem_map_of_mem (List.mem_of_getLast? ho))
    · exact List.mem_append_right _ (List.mem_map_of_mem (List.mem_of_getLast? ho))
  obtain ⟨f', k1, k2⟩ := h.lf.remove_ok (H := l'.H) hmem hlk
  exact ⟨l', f', _, e1, k1, ⟨_, _, _, h.gone e2 k2, by rw [delL_cont]; exact List.filter_sublist, by rw [delL_cont]; exact List.filter_sublist⟩⟩

/-- the first removes the proposal of the second -/
theorem evict_second (hcs : 0 < cs) (h : Rel cs l f R SR H t) {o : Obj Meta} (ho : o ∈ R ++ SR) (hr : rare t = some o.id) :
    ∃ l' f' H', l.remove o.id = .ok (true, l') ∧ f.evict l'.H = .ok (f', H') ∧
      (∃ R' SR' Hs, Rel cs { l' with H := H' } f' R' SR' Hs (limitPast cs (leave t (o.id, o.size))) ∧ (cont R').Sublist (cont R) ∧ (cont SR').Sublist (cont SR)) := by
  obtain ⟨l', H', e1, e2⟩ := h.lr.remove_ok hcs ho
  have hlk : (l'.H.base.lookup o.id).isSome = true := by
    rw [e2.rep.h.lookup_isSome]
    obtain ⟨y, hy, e⟩ := e2.there
    exact decide_eq_true (List.mem_map.2 ⟨y, hy, e⟩)
  obtain ⟨f', k1, k2, _⟩ := h.lf.evict_ok (H := l'.H) hr hlk
  exact ⟨l', f', _, e1, k1, ⟨_, _, _, h.gone e2 k2, by rw [delL_cont]; exact List.filter_sublist, by rw [delL_cont]; exact List.filter_sublist⟩⟩

/-- both forget the object -/
theorem remove_both (hcs : 0 < cs) (h : Rel cs l f R SR H t) {o : Obj Meta} (ho : o ∈ R ++ SR) :
    ∃ l' f' H', l.remove o.id = .ok (true, l') ∧ f.remove l'.H o.id = .ok (true, f', H') ∧
      (∃ R' SR' Hs, Rel cs { l' with H := H' } f' R' SR' Hs (limitPast cs (leave t (o.id, o.size))) ∧ (cont R').Sublist (cont R) ∧ (cont SR').Sublist (cont SR)) := by
  obtain ⟨l', H', e1, e2⟩ := h.lr.remove_ok hcs ho
  have hlk : (l'.H.base.lookup o.id).isSome = true := by
    rw [e2.rep.h.lookup_isSome]
    obtain ⟨y, hy, e⟩ := e2.there
    exact decide_eq_true (List.mem_map.2 ⟨y, hy, e⟩)
  obtain ⟨f', k1, k2⟩ := h.lf.remove_ok (H := l'.H) (h.mem_order.2 (by rw [← List.map_append]; exact List.mem_map_of_mem ho)) hlk
  exact ⟨l', f', _, e1, k1, ⟨_, _, _, h.gone e2 k2, by rw [delL_cont]; exact List.filter_sublist, by rw [delL_cont]; exact List.filter_sublist⟩⟩

end Rel
end Verif.Cacheus
