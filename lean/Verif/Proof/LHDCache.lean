import Verif.Proof.LHD
/-!
# Helper proofs for LHD: removal, ranking, and the calls of the API
-/

namespace Verif.LHD
open Verif Spec Spec.LHD
variable {R : Rounding}

/-! ### The size map -/

theorem lookup_none {s : State} {id : ObjId} : lookup s id = none ↔ id ∉ s.sizeMap.map Prod.fst := by
  unfold lookup
  induction s.sizeMap with
  | nil => simp
  | cons a l ih =>
    obtain ⟨x, z⟩ := a
    by_cases h : id = x
    · subst h; simp [List.lookup]
    · rw [List.lookup_cons, beq_eq_false_iff_ne.2 h]
      simp only [List.map_cons, List.mem_cons, h, false_or]
      exact ih

theorem lookup_mem {s : State} {id : ObjId} {z : Nat} (h : lookup s id = some z) : (id, z) ∈ s.sizeMap := by
  unfold lookup at h
  induction hm : s.sizeMap generalizing s with
  | nil => rw [hm] at h; simp at h
  | cons a l ih =>
    obtain ⟨x, y⟩ := a
    rw [hm, List.lookup_cons] at h
    by_cases e : id = x
    · subst e
      simp at h; subst h; simp
    · rw [beq_eq_false_iff_ne.2 e] at h
      exact List.mem_cons_of_mem _ (ih (s := { s with sizeMap := l }) h rfl)

theorem lookup_some {s : State} {id : ObjId} (h : id ∈ s.sizeMap.map Prod.fst) : ∃ z, lookup s id = some z := by
  cases e : lookup s id with
  | none => exact absurd h (lookup_none.1 e)
  | some z => exact ⟨z, rfl⟩

theorem filter_notin {l : List (ObjId × Nat)} {id : ObjId} (h : id ∉ l.map Prod.fst) : l.filter (fun x => x.1 ≠ id) = l := by
  rw [List.filter_eq_self]
  intro x hx
  simp only [ne_eq, decide_eq_true_eq]
  rintro rfl
  exact h (List.mem_map_of_mem hx)

theorem perm_cons_filter {l : List (ObjId × Nat)} {id : ObjId} {z : Nat} (hn : (l.map Prod.fst).Nodup) (h : (id, z) ∈ l) :
    l.Perm ((id, z) :: l.filter (fun x => x.1 ≠ id)) := by
  induction l with
  | nil => simp at h
  | cons a l ih =>
    obtain ⟨x, y⟩ := a
    simp only [List.map_cons, List.nodup_cons] at hn
    rcases List.mem_cons.1 h with h | h
    · cases h
      rw [List.filter_cons_of_neg (by simp), filter_notin hn.1]
    · have hx : x ≠ id := by
        rintro rfl
        exact hn.1 (List.mem_map.2 ⟨_, h, rfl⟩)
      rw [List.filter_cons_of_pos (by simpa using hx)]
      exact ((ih hn.2 h).cons _).trans (List.Perm.swap _ _ _)

/-- replacing the size of one object -/
theorem perm_resize {l : List (ObjId × Nat)} {id : ObjId} {z z' : Nat} (hn : (l.map Prod.fst).Nodup) (h : (id, z) ∈ l) :
    (l.map (fun x => if x.1 = id then (x.1, z') else x)).Perm ((id, z') :: l.filter (fun x => x.1 ≠ id)) := by
  have := (perm_cons_filter hn h).map (fun x => if x.1 = id then (x.1, z') else x)
  refine this.trans ?_
  rw [List.map_cons, if_pos rfl]
  refine List.Perm.cons _ (List.Perm.of_eq ?_)
  conv_rhs => rw [← List.map_id (l.filter (fun x => x.1 ≠ id))]
  refine List.map_congr_left fun x hx => ?_
  have : x.1 ≠ id := by simpa using (List.mem_filter.1 hx).2
  rw [if_neg this]; rfl

theorem ids_resize {l : List (ObjId × Nat)} {id : ObjId} {z' : Nat} :
    (l.map (fun x => if x.1 = id then (x.1, z') else x)).map Prod.fst = l.map Prod.fst := by
  rw [List.map_map]
  refine List.map_congr_left fun x _ => ?_
  simp only [Function.comp]
  split <;> rfl

theorem perm_filter_of_cons {l : List ObjId} {l' : List (ObjId × Nat)} {id : ObjId} (h : (id :: l).Perm (l'.map Prod.fst))
    (hn : (l'.map Prod.fst).Nodup) : l.Perm ((l'.filter (fun x => x.1 ≠ id)).map Prod.fst) := by
  have h1 : ((l'.filter (fun x => x.1 ≠ id)).map Prod.fst) = (l'.map Prod.fst).filter (fun x => x ≠ id) := by
    rw [List.filter_map]; rfl
  rw [h1]
  have h2 := h.filter (fun x => decide (x ≠ id))
  rw [List.filter_cons_of_neg (by simp)] at h2
  have hnl : id ∉ l := (List.nodup_cons.1 (h.nodup_iff.2 hn)).1
  have h3 : l.filter (fun x => decide (x ≠ id)) = l := by
    rw [List.filter_eq_self]
    intro x hx
    simp only [ne_eq, decide_eq_true_eq]
    rintro rfl
    exact hnl hx
  rwa [h3] at h2

/-! ### Removal -/

theorem idx_uniq {s : State} (h : ∀ id i, s.indices id = some i ↔ ∃ t, s.tags[i]? = some t ∧ t.id = id) {i j : Nat} {t t' : Tag}
    (h1 : s.tags[i]? = some t) (h2 : s.tags[j]? = some t') (h3 : t.id = t'.id) : i = j := by
  have k1 := (h t.id i).2 ⟨t, h1, rfl⟩
  have k2 := (h t.id j).2 ⟨t', h2, h3.symm⟩
  rw [k1] at k2; exact Option.some.inj k2

theorem swapRemove_spec {s : State} {id : ObjId} {i : Nat} {t : Tag} (hi : s.tags[i]? = some t) (ht : t.id = id)
    (hidx : ∀ id i, s.indices id = some i ↔ ∃ t, s.tags[i]? = some t ∧ t.id = id) :
    ∃ s' l, swapRemove s id i = .ok s' ∧ s' = { s with tags := l, indices := s'.indices } ∧ s.tags.Perm (t :: l) ∧
      (∀ x ∈ l, x ∈ s.tags) ∧ ∀ id i, s'.indices id = some i ↔ ∃ t, s'.tags[i]? = some t ∧ t.id = id := by
  have hil : i < s.tags.length := (List.getElem?_eq_some_iff.1 hi).1
  have huniq := fun {i j t t'} => idx_uniq (s := s) hidx (i := i) (j := j) (t := t) (t' := t')
  rcases List.eq_nil_or_concat s.tags with h0 | ⟨a, l, h0⟩
  · rw [h0] at hil; simp at hil
  rw [List.concat_eq_append] at h0
  have hgl : s.tags.getLast? = some l := by rw [h0]; simp
  unfold swapRemove
  simp only [hgl]
  rw [if_pos hil]
  simp only [h0] at hi huniq hidx ⊢
  simp only [List.length_append, List.length_singleton, Nat.add_sub_cancel]
  have hlast : (a ++ [l])[a.length]? = some l := by simp
  rw [h0, List.length_append, List.length_singleton] at hil
  by_cases hia : i < a.length
  · rw [if_pos hia]
    have hai : a[i]? = some t := by rw [List.getElem?_append_left hia] at hi; exact hi
    have e1 : ((a ++ [l]).set i l).dropLast = a.set i l := by
      rw [List.set_append_left _ _ hia, List.dropLast_concat]
    rw [e1]
    have hne : l.id ≠ id := by
      intro e
      have := huniq hi hlast (ht.trans e.symm)
      omega
    refine ⟨_, a.set i l, rfl, rfl, ?_, ?_, ?_⟩
    · obtain ⟨p, q, hpq, hpl⟩ : ∃ p q, a = p ++ t :: q ∧ p.length = i := by
        refine ⟨a.take i, a.drop (i + 1), ?_, by simp; omega⟩
        have hget : a[i] = t := (List.getElem?_eq_some_iff.1 hai).2
        rw [← hget, ← List.drop_eq_getElem_cons hia, List.take_append_drop]
      subst hpl
      rw [hpq, List.set_append_right _ _ (le_refl _), Nat.sub_self, List.set_cons_zero]
      have : ((p ++ t :: q) ++ [l]).Perm ((t :: (p ++ q)) ++ [l]) := List.perm_middle.append_right _
      refine this.trans ?_
      rw [List.cons_append]
      refine List.Perm.cons _ ?_
      rw [List.append_assoc]
      refine List.Perm.append_left _ ?_
      exact List.perm_append_comm
    · intro x hx
      rcases List.mem_or_eq_of_mem_set hx with hx | rfl
      · exact List.mem_append_left _ hx
      · simp
    · intro id' j
      dsimp only
      unfold LHD.set
      by_cases e : id' = l.id
      · subst e
        rw [if_pos rfl]
        constructor
        · intro h; cases h
          exact ⟨l, List.getElem?_set_self hia, rfl⟩
        · rintro ⟨t', k1, k2⟩
          by_cases hj : i = j
          · rw [hj]
          · rw [List.getElem?_set_ne hj] at k1
            have hjl : j < a.length := (List.getElem?_eq_some_iff.1 k1).1
            have := huniq (by rw [List.getElem?_append_left hjl]; exact k1) hlast k2
            omega
      · rw [if_neg e]
        by_cases e2 : id' = id
        · subst e2
          rw [if_pos rfl]
          constructor
          · intro h; cases h
          · rintro ⟨t', k1, k2⟩
            by_cases hj : i = j
            · subst hj
              rw [List.getElem?_set_self hia] at k1
              cases k1
              exact absurd k2 hne
            · rw [List.getElem?_set_ne hj] at k1
              have hjl : j < a.length := (List.getElem?_eq_some_iff.1 k1).1
              exact absurd (huniq hi (by rw [List.getElem?_append_left hjl]; exact k1) (ht.trans k2.symm)) hj
        · rw [if_neg e2, hidx]
          constructor
          · rintro ⟨t', k1, k2⟩
            have hj : i ≠ j := by
              rintro rfl
              rw [hi] at k1; cases k1
              exact e2 (k2.symm.trans ht)
            by_cases hjl : j < a.length
            · rw [List.getElem?_append_left hjl] at k1
              exact ⟨t', by rw [List.getElem?_set_ne hj]; exact k1, k2⟩
            · have : j < (a ++ [l]).length := (List.getElem?_eq_some_iff.1 k1).1
              simp at this
              have : j = a.length := by omega
              subst this
              rw [hlast] at k1; cases k1
              exact absurd k2.symm e
          · rintro ⟨t', k1, k2⟩
            by_cases hj : i = j
            · subst hj
              rw [List.getElem?_set_self hia] at k1; cases k1
              exact absurd k2.symm e
            · rw [List.getElem?_set_ne hj] at k1
              have hjl : j < a.length := (List.getElem?_eq_some_iff.1 k1).1
              exact ⟨t', by rw [List.getElem?_append_left hjl]; exact k1, k2⟩
  · rw [if_neg hia]
    have hie : i = a.length := by omega
    subst hie
    obtain rfl : l = t := by rw [hlast] at hi; exact Option.some.inj hi
    have e1 : ((a ++ [l]).set a.length l).dropLast = a := by
      rw [List.set_append_right _ _ (le_refl _), Nat.sub_self, List.set_cons_zero, List.dropLast_concat]
    rw [e1]
    refine ⟨_, a, rfl, rfl, ?_, ?_, ?_⟩
    · exact List.perm_append_comm
    · intro x hx; exact List.mem_append_left _ hx
    · intro id' j
      dsimp only
      unfold LHD.set
      by_cases e : id' = id
      · subst e
        rw [if_pos rfl]
        constructor
        · intro h; cases h
        · rintro ⟨t', k1, k2⟩
          have hjl : j < a.length := (List.getElem?_eq_some_iff.1 k1).1
          have := huniq (by rw [List.getElem?_append_left hjl]; exact k1) hlast (k2.trans ht.symm)
          omega
      · rw [if_neg e, hidx]
        constructor
        · rintro ⟨t', k1, k2⟩
          by_cases hjl : j < a.length
          · rw [List.getElem?_append_left hjl] at k1
            exact ⟨t', k1, k2⟩
          · have : j < (a ++ [l]).length := (List.getElem?_eq_some_iff.1 k1).1
            simp at this
            have : j = a.length := by omega
            subst this
            rw [hlast] at k1; cases k1
            exact absurd (k2.symm.trans ht) e
        · rintro ⟨t', k1, k2⟩
          have hjl : j < a.length := (List.getElem?_eq_some_iff.1 k1).1
          exact ⟨t', by rw [List.getElem?_append_left hjl]; exact k1, k2⟩

/-! ### Ranking -/

theorem draws_succ {tags : List Tag} {picks : List Nat} (n : Nat) {t : Tag} (h : tags[picks.headD 0 % tags.length]? = some t) :
    draws tags picks (n + 1) = t :: draws tags picks.tail n := by
  unfold draws
  rw [List.range_succ_eq_map, List.filterMap_cons]
  have : picks.getD 0 0 = picks.headD 0 := by cases picks <;> rfl
  rw [this, h]
  simp only [List.filterMap_map, List.cons.injEq, true_and]
  apply List.filterMap_congr
  intro i _
  simp only [Function.comp]
  congr 2
  cases picks <;> simp

/-- The outcome of a search for the lowest density among `l`, starting from the candidate `v` of rank `vr`. -/
def Best (R : Rounding) (s : State) (l : List Tag) (v : Option Nat) (vr : Rat) (v' : Option Nat) (vr' : Rat) : Prop :=
  (v' = v ∧ vr' = vr ∧ ∀ x ∈ l, vr ≤ dens R s x) ∨
    ∃ i t, v' = some i ∧ s.tags[i]? = some t ∧ t ∈ l ∧ vr' = dens R s t ∧ dens R s t < vr ∧ ∀ x ∈ l, dens R s t ≤ dens R s x

theorem Best.nil {s : State} {v : Option Nat} {vr : Rat} : Best R s [] v vr v vr := .inl ⟨rfl, rfl, by simp⟩

theorem Best.skip {s : State} {l : List Tag} {v v' : Option Nat} {vr vr' : Rat} {x : Tag} (h : Best R s l v vr v' vr') (hx : ¬ dens R s x < vr) :
    Best R s (x :: l) v vr v' vr' := by
  rcases h with ⟨h1, h2, h3⟩ | ⟨i, t, h1, h2, h3, h4, h5, h6⟩
  · exact .inl ⟨h1, h2, fun y hy => by rcases List.mem_cons.1 hy with rfl | hy; exacts [not_lt.1 hx, h3 y hy]⟩
  · exact .inr ⟨i, t, h1, h2, List.mem_cons_of_mem _ h3, h4, h5, fun y hy => by
      rcases List.mem_cons.1 hy with rfl | hy
      · linarith
      · exact h6 y hy⟩

theorem Best.take {s : State} {l : List Tag} {v v' : Option Nat} {vr vr' : Rat} {i : Nat} {x : Tag} (hi : s.tags[i]? = some x)
    (h : Best R s l (some i) (dens R s x) v' vr') (hx : dens R s x < vr) : Best R s (x :: l) v vr v' vr' := by
  rcases h with ⟨h1, h2, h3⟩ | ⟨j, t, h1, h2, h3, h4, h5, h6⟩
  · exact .inr ⟨i, x, h1, hi, by simp, h2, hx, fun y hy => by rcases List.mem_cons.1 hy with rfl | hy; exacts [le_refl _, h3 y hy]⟩
  · exact .inr ⟨j, t, h1, h2, List.mem_cons_of_mem _ h3, h4, by linarith, fun y hy => by
      rcases List.mem_cons.1 hy with rfl | hy
      · linarith
      · exact h6 y hy⟩

theorem Best.append {s : State} {l l' : List Tag} {v v1 v2 : Option Nat} {vr r1 r2 : Rat} (h : Best R s l v vr v1 r1)
    (h' : Best R s l' v1 r1 v2 r2) : Best R s (l ++ l') v vr v2 r2 := by
  rcases h with ⟨a1, a2, a3⟩ | ⟨i, t, a1, a2, a3, a4, a5, a6⟩ <;> rcases h' with ⟨b1, b2, b3⟩ | ⟨j, u, b1, b2, b3, b4, b5, b6⟩
  · subst a1 a2
    exact .inl ⟨b1, b2, fun x hx => (List.mem_append.1 hx).elim (a3 x) (b3 x)⟩
  · subst a1 a2
    refine .inr ⟨j, u, b1, b2, List.mem_append_right _ b3, b4, b5, fun x hx => (List.mem_append.1 hx).elim (fun hx => ?_) (b6 x)⟩
    have := a3 x hx; linarith
  · refine .inr ⟨i, t, b1.trans a1, a2, List.mem_append_left _ a3, b2.trans a4, a5, fun x hx => (List.mem_append.1 hx).elim (a6 x) (fun hx => ?_)⟩
    have := b3 x hx; rw [a4] at this; exact this
  · rw [a4] at b5
    refine .inr ⟨j, u, b1, b2, List.mem_append_right _ b3, b4, by linarith, fun x hx => (List.mem_append.1 hx).elim (fun hx => ?_) (b6 x)⟩
    have := a6 x hx; linarith

theorem sampleLoop_spec {s : State} (happ : ∀ t ∈ s.tags, t.app = 1) (hpos : ∀ t ∈ s.tags, 1 ≤ t.size) (hne : s.tags ≠ []) :
    ∀ (n : Nat) (picks : List Nat) (v : Option Nat) (vr : Rat),
      ∃ v' vr', sampleLoop R s n picks v vr = .ok (v', vr', picks.drop n) ∧ Best R s (draws s.tags picks n) v vr v' vr' := by
  intro n
  induction n with
  | zero => intro picks v vr; exact ⟨v, vr, rfl, Best.nil⟩
  | succ n ih =>
    intro picks v vr
    have hl : s.tags.length ≠ 0 := by simpa using hne
    have hm := Nat.mod_lt (picks.headD 0) (Nat.pos_of_ne_zero hl)
    have hg : s.tags[picks.headD 0 % s.tags.length]? = some (s.tags[picks.headD 0 % s.tags.length]) := List.getElem?_eq_getElem hm
    generalize s.tags[picks.headD 0 % s.tags.length] = t at hg
    have htm := List.mem_of_getElem? hg
    have hd : picks.tail.drop n = picks.drop (n + 1) := by cases picks <;> simp
    unfold sampleLoop
    rw [if_neg hl]
    simp only [hg, density_eq (happ t htm) (hpos t htm), Res.bind_ok, below, Option.getD_some, decide_eq_true_eq]
    rw [draws_succ n hg]
    by_cases hb : dens R s t < vr
    · rw [if_pos hb]
      obtain ⟨v', vr', h1, h2⟩ := ih picks.tail (some (picks.headD 0 % s.tags.length)) (dens R s t)
      exact ⟨v', vr', by rw [h1, hd], h2.take hg hb⟩
    · rw [if_neg hb]
      obtain ⟨v', vr', h1, h2⟩ := ih picks.tail v vr
      exact ⟨v', vr', by rw [h1, hd], h2.skip hb⟩

theorem recentLoop_spec {s : State} (happ : ∀ t ∈ s.tags, t.app = 1) (hpos : ∀ t ∈ s.tags, 1 ≤ t.size)
    (hidx : ∀ id i, s.indices id = some i ↔ ∃ t, s.tags[i]? = some t ∧ t.id = id) :
    ∀ (l : List (Option ObjId)) (v : Option Nat) (vr : Rat), ∃ v' vr', recentLoop R s l v vr = .ok (v', vr') ∧
      Best R s (l.filterMap (fun o => o.bind (fun id => (s.indices id).bind (fun i => s.tags[i]?)))) v vr v' vr' := by
  intro l
  induction l with
  | nil => intro v vr; exact ⟨v, vr, rfl, Best.nil⟩
  | cons o l ih =>
    intro v vr
    cases o with
    | none => exact ih v vr
    | some id =>
      unfold recentLoop
      cases hi : s.indices id with
      | none =>
        obtain ⟨v', vr', h1, h2⟩ := ih v vr
        exact ⟨v', vr', h1, by simpa [hi] using h2⟩
      | some i =>
        obtain ⟨t, ht, hid⟩ := (hidx _ _).1 hi
        have htm := List.mem_of_getElem? ht
        simp only [ht, if_neg (not_not.2 hid), density_eq (happ t htm) (hpos t htm), Res.bind_ok, below, Option.getD_some, decide_eq_true_eq]
        rw [List.filterMap_cons_some (b := t) (by simp [hi, ht])]
        by_cases hb : dens R s t < vr
        · rw [if_pos hb]
          obtain ⟨v', vr', h1, h2⟩ := ih (some i) (dens R s t)
          exact ⟨v', vr', h1, h2.take ht hb⟩
        · rw [if_neg hb]
          obtain ⟨v', vr', h1, h2⟩ := ih v vr
          exact ⟨v', vr', h1, h2.skip hb⟩

theorem candidates_pos (s : State) : 0 < candidates s := by unfold candidates; split <;> decide

theorem draws_mem {tags : List Tag} {picks : List Nat} {n : Nat} {t : Tag} (h : t ∈ draws tags picks n) : t ∈ tags := by
  simp only [draws, List.mem_filterMap] at h
  obtain ⟨i, _, h⟩ := h
  exact List.mem_of_getElem? h

/-- `rank` finds a cached object of lowest density among the drawn and the recently admitted ones. -/
theorem rank_spec {s : State} (h : TInv R s) (hne : s.tags ≠ []) :
    ∃ t ew, rank R s = .ok (t.id, { s with picks := s.picks.drop (candidates s), ewmaVictim := ew }) ∧
      t ∈ s.tags ∧ t ∈ draws s.tags s.picks (candidates s) ++ recents s ∧
      ∀ x ∈ draws s.tags s.picks (candidates s) ++ recents s, dens R s t ≤ dens R s x := by
  obtain ⟨v1, r1, h1, h2⟩ := sampleLoop_spec (R := R) h.app h.pos hne (candidates s) s.picks none fltMax
  obtain ⟨v2, r2, h3, h4⟩ := recentLoop_spec (R := R) h.app h.pos h.idx s.recent v1 r1
  have hb := h2.append h4
  unfold rank
  rw [h1, Res.bind_ok]
  simp only [h3, Res.bind_ok]
  rcases hb with ⟨b1, b2, b3⟩ | ⟨i, t, b1, b2, b3, b4, b5, b6⟩
  · exfalso
    obtain ⟨t, ht⟩ : ∃ t, t ∈ draws s.tags s.picks (candidates s) := by
      have hl : s.tags.length ≠ 0 := by simpa using hne
      have hm := Nat.mod_lt (s.picks.headD 0) (Nat.pos_of_ne_zero hl)
      obtain ⟨n, hn⟩ := Nat.exists_eq_succ_of_ne_zero (Nat.pos_iff_ne_zero.1 (candidates_pos s))
      rw [hn, Nat.succ_eq_add_one, draws_succ n (List.getElem?_eq_getElem hm)]
      exact ⟨_, List.mem_cons_self⟩
    have k1 := b3 t (List.mem_append_left _ ht)
    have k2 := dens_lt (R := R) (s := s) h.classes (h.app t (draws_mem ht)) (h.pos t (draws_mem ht))
    linarith
  · subst b1
    simp only [b2]
    exact ⟨t, _, rfl, List.mem_of_getElem? b2, b3, b6⟩

end Verif.LHD
