import Verif.Proof.LeCaR
/-!
# LeCaR: eviction stamps, and the access counter of the C code
-/

namespace Verif.LeCaR
open Verif Spec Spec.LeCaR

variable {R : Arith}

/-! ## Stamps -/

/-- Every ghost of `b'` was a ghost of `b` with the same stamp and expert, or is stamped `n`. -/
def Kept (n : Nat) (b b' : Base Meta) : Prop :=
  ∀ o' ∈ b'.tbl, o'.mt.ghost = true →
    (∃ o ∈ b.tbl, o.id = o'.id ∧ o.mt.ghost = true ∧ o.mt.vtime = o'.mt.vtime ∧ o.mt.expert = o'.mt.expert) ∨ o'.mt.vtime = asField n

theorem Kept.refl (n : Nat) (b : Base Meta) : Kept n b b := fun o' h hg => Or.inl ⟨o', h, rfl, hg, rfl, rfl⟩

theorem Kept.trans {n : Nat} {b b' b'' : Base Meta} (h : Kept n b b') (h' : Kept n b' b'') : Kept n b b'' := by
  intro o ho hg
  rcases h' o ho hg with ⟨o1, g1, g2, g3, g4, g5⟩ | g
  · rcases h o1 g1 g3 with ⟨o2, k1, k2, k3, k4, k5⟩ | k
    · exact Or.inl ⟨o2, k1, k2.trans g2, k3, k4.trans g4, k5.trans g5⟩
    · exact Or.inr (g4 ▸ k)
  · exact Or.inr g

theorem Kept.sub {n : Nat} {b b' : Base Meta} (h : ∀ o ∈ b'.tbl, o ∈ b.tbl) : Kept n b b' :=
  fun o' ho hg => Or.inl ⟨o', h o' ho, rfl, hg, rfl, rfl⟩

theorem Kept.del (n : Nat) (b : Base Meta) (id : ObjId) : Kept n b (b.del id) := Kept.sub (fun _ ho => List.mem_of_mem_eraseP ho)

theorem mem_modify {b : Base Meta} {id : ObjId} {f : Obj Meta → Obj Meta} {o : Obj Meta} (h : o ∈ (b.modify id f).tbl) : ∃ o1 ∈ b.tbl, o = o1 ∨ o = f o1 := by
  obtain ⟨o1, h1, h2⟩ := List.mem_map.1 h
  refine ⟨o1, h1, ?_⟩
  split at h2
  · exact Or.inr h2.symm
  · exact Or.inl h2.symm

theorem Kept.modify (n : Nat) (b : Base Meta) (id : ObjId) (f : Obj Meta → Obj Meta) (hid : ∀ o, (f o).id = o.id)
    (hf : (∀ o, (f o).mt.ghost = o.mt.ghost ∧ (f o).mt.vtime = o.mt.vtime ∧ (f o).mt.expert = o.mt.expert) ∨ ∀ o, (f o).mt.vtime = asField n) :
    Kept n b (b.modify id f) := by
  intro o ho hg
  obtain ⟨o1, h1, rfl | rfl⟩ := mem_modify ho
  · exact Or.inl ⟨o, h1, rfl, hg, rfl, rfl⟩
  · rcases hf with hf | hf
    · obtain ⟨k1, k2, k3⟩ := hf o1
      exact Or.inl ⟨o1, h1, (hid o1).symm, k1 ▸ hg, k2.symm, k3.symm⟩
    · exact Or.inr (hf o1)

theorem updateMin_base (s : State R) : (updateMin s).base = s.base := by unfold updateMin; split <;> rfl

theorem takeFreq_base {s s' : State R} {id : ObjId} {f : Nat} (h : takeFreq s id f = .ok s') : s'.base = s.base := by
  unfold takeFreq at h
  split at h
  · cases h
  · rw [Res.bind_eq_ok] at h
    obtain ⟨q', _, h⟩ := h
    cases h
    split
    · exact updateMin_base _
    · rfl

theorem putFreq_base {s s' : State R} {id : ObjId} {f : Nat} (h : putFreq s id f = .ok s') : s'.base = s.base := by
  unfold putFreq at h
  rw [Res.bind_eq_ok] at h
  obtain ⟨q', _, h⟩ := h
  cases h; rfl

theorem settleMin_base (s : State R) (f : Nat) : (settleMin s f).base = s.base := by
  unfold settleMin
  simp only
  split <;> split <;> first | rfl | exact updateMin_base _

theorem ghostHit_kept {s s' : State R} {o : Obj Meta} (n : Nat) (h : ghostHit s o = .ok s') : Kept n s.base s'.base ∧ s'.base.nReq = s.base.nReq := by
  unfold ghostHit at h
  split at h
  · rw [Res.bind_eq_ok] at h
    obtain ⟨g, _, h⟩ := h
    cases h; exact ⟨Kept.del _ _ _, rfl⟩
  · split at h
    · rw [Res.bind_eq_ok] at h
      obtain ⟨g, _, h⟩ := h
      cases h; exact ⟨Kept.del _ _ _, rfl⟩
    · split at h
      · cases h; exact ⟨Kept.del _ _ _, rfl⟩
      · cases h

theorem dataHit_kept {K : Counter} {s s' : State R} {o : Obj Meta} (n : Nat) (h : dataHit K s o = .ok s') : Kept n s.base s'.base ∧ s'.base.nReq = s.base.nReq := by
  unfold dataHit at h
  rw [Res.bind_eq_ok] at h
  obtain ⟨q', _, h⟩ := h
  rw [Res.bind_eq_ok] at h
  obtain ⟨s1, h1, h⟩ := h
  rw [Res.bind_eq_ok] at h
  obtain ⟨s2, h2, h⟩ := h
  cases h
  rw [settleMin_base, putFreq_base h2]
  simp only [takeFreq_base h1]
  exact ⟨Kept.modify _ _ _ _ (fun _ => rfl) (Or.inl fun _ => ⟨rfl, rfl, rfl⟩), rfl⟩

theorem find_kept {K : Counter} {s s' : State R} {r : Req} {u b : Bool} (n : Nat) (h : find K s r u = .ok (b, s')) : Kept n s.base s'.base ∧ s'.base.nReq = s.base.nReq := by
  have hb : Kept n s.base (s.base.findBase r u).2 ∧ (s.base.findBase r u).2.nReq = s.base.nReq := by
    unfold Base.findBase
    split
    · exact ⟨Kept.refl _ _, rfl⟩
    · split
      · exact ⟨Kept.modify _ _ _ _ (fun _ => rfl) (Or.inl fun _ => ⟨rfl, rfl, rfl⟩), rfl⟩
      · exact ⟨Kept.refl _ _, rfl⟩
  unfold find at h
  split at h
  · rename_i b1 he
    cases h
    rw [he] at hb; exact hb
  · rename_i o b1 he
    rw [he] at hb
    split at h
    · cases h; exact hb
    · split at h
      · rw [Res.bind_eq_ok] at h
        obtain ⟨s1, h1, h⟩ := h
        cases h
        obtain ⟨k1, k2⟩ := ghostHit_kept n h1
        exact ⟨hb.1.trans k1, k2.trans hb.2⟩
      · rw [Res.bind_eq_ok] at h
        obtain ⟨s1, h1, h⟩ := h
        cases h
        obtain ⟨k1, k2⟩ := dataHit_kept n h1
        exact ⟨hb.1.trans k1, k2.trans hb.2⟩

theorem insert_kept {s s' : State R} {r : Req} (n : Nat) (h : insert s r = .ok s') : Kept n s.base s'.base ∧ s'.base.nReq = s.base.nReq := by
  unfold insert at h
  rw [Res.bind_eq_ok] at h
  obtain ⟨q', _, h⟩ := h
  split at h
  · cases h
  · rw [Res.bind_eq_ok] at h
    obtain ⟨n', _, h⟩ := h
    cases h
    refine ⟨fun o ho hg => ?_, rfl⟩
    rcases List.mem_cons.1 ho with rfl | ho
    · cases hg
    · exact Or.inl ⟨o, ho, rfl, hg, rfl, rfl⟩

theorem trimLru_kept (n : Nat) : ∀ (m : Nat) {s s' : State R}, trimLru m s = .ok s' → Kept n s.base s'.base ∧ s'.base.nReq = s.base.nReq := by
  intro m
  induction m with
  | zero =>
    intro s s' h
    unfold trimLru at h
    split at h
    · cases h
    · cases h; exact ⟨Kept.refl _ _, rfl⟩
  | succ m ih =>
    intro s s' h
    unfold trimLru at h
    split at h
    · simp only at h
      rw [Res.bind_eq_ok] at h
      obtain ⟨id, _, h⟩ := h
      split at h
      · cases h
      · obtain ⟨k1, k2⟩ := ih h
        exact ⟨(Kept.del n s.base id).trans k1, k2⟩
    · cases h; exact ⟨Kept.refl _ _, rfl⟩

theorem trimLfu_kept (n : Nat) : ∀ (m : Nat) {s s' : State R}, trimLfu m s = .ok s' → Kept n s.base s'.base ∧ s'.base.nReq = s.base.nReq := by
  intro m
  induction m with
  | zero =>
    intro s s' h
    unfold trimLfu at h
    split at h
    · cases h
    · cases h; exact ⟨Kept.refl _ _, rfl⟩
  | succ m ih =>
    intro s s' h
    unfold trimLfu at h
    split at h
    · simp only at h
      rw [Res.bind_eq_ok] at h
      obtain ⟨id, _, h⟩ := h
      split at h
      · cases h
      · obtain ⟨k1, k2⟩ := ih h
        exact ⟨(Kept.del n s.base id).trans k1, k2⟩
    · cases h; exact ⟨Kept.refl _ _, rfl⟩

theorem retire_kept {s s' : State R} {o : Obj Meta} {e : Int} (h : retire s o e = .ok s') : Kept s.base.nReq s.base s'.base ∧ s'.base.nReq = s.base.nReq := by
  unfold retire at h
  rw [Res.bind_eq_ok] at h
  obtain ⟨q', _, h⟩ := h
  rw [Res.bind_eq_ok] at h
  obtain ⟨s1, h1, h⟩ := h
  rw [Res.bind_eq_ok] at h
  obtain ⟨b, h2, h⟩ := h
  have hs1 := takeFreq_base h1
  simp only at hs1
  have h0 : Kept s.base.nReq s.base s1.base ∧ s1.base.nReq = s.base.nReq := by
    rw [hs1]
    refine ⟨Kept.modify _ _ _ _ (fun _ => rfl) (Or.inr fun o => ?_), rfl⟩
    generalize asField s.base.nReq = v
    rfl
  have hb : Kept s.base.nReq s.base b ∧ b.nReq = s.base.nReq := by
    unfold Base.removeObjBaseKeep at h2
    split at h2
    · cases h2
    · cases h2
      exact ⟨h0.1.trans (Kept.sub (fun _ ho => ho)), h0.2⟩
  split at h
  · rw [Res.bind_eq_ok] at h
    obtain ⟨g, _, h⟩ := h
    obtain ⟨k1, k2⟩ := trimLru_kept s.base.nReq _ h
    exact ⟨hb.1.trans k1, k2.trans hb.2⟩
  · split at h
    · rw [Res.bind_eq_ok] at h
      obtain ⟨g, _, h⟩ := h
      obtain ⟨k1, k2⟩ := trimLfu_kept s.base.nReq _ h
      exact ⟨hb.1.trans k1, k2.trans hb.2⟩
    · cases h; exact hb

theorem choose_base (s : State R) (x y : Option ObjId) : (choose s x y).2.2.base = s.base := by
  unfold choose
  split
  · rfl
  · split
    · rfl
    · split <;> rfl

theorem evict_kept {s s' : State R} (h : evict s = .ok s') : Kept s.base.nReq s.base s'.base ∧ s'.base.nReq = s.base.nReq := by
  unfold evict at h
  rw [Res.bind_eq_ok] at h
  obtain ⟨lfu, _, h⟩ := h
  split at h
  · cases h
  · split at h
    · cases h
    · have := retire_kept h
      rw [choose_base] at this
      exact this

theorem evictLoop_kept (K : Counter) (r : Req) : ∀ (m : Nat) {s s' : State R}, (algo R K).evictLoop r m s = .ok s' → Kept s.base.nReq s.base s'.base ∧ s'.base.nReq = s.base.nReq := by
  intro m
  induction m with
  | zero =>
    intro s s' h
    unfold Algo.evictLoop at h
    split at h
    · cases h
    · cases h; exact ⟨Kept.refl _ _, rfl⟩
  | succ m ih =>
    intro s s' h
    unfold Algo.evictLoop at h
    split at h
    · rw [Res.bind_eq_ok] at h
      obtain ⟨s1, h1, h⟩ := h
      obtain ⟨k1, k2⟩ := evict_kept (s := s) (s' := s1) h1
      obtain ⟨k3, k4⟩ := ih h
      rw [k2] at k3
      exact ⟨k1.trans k3, k4.trans k2⟩
    · cases h; exact ⟨Kept.refl _ _, rfl⟩

theorem remove_kept {s s' : State R} {id : ObjId} {b : Bool} (n : Nat) (h : remove s id = .ok (b, s')) : Kept n s.base s'.base ∧ s'.base.nReq = s.base.nReq := by
  unfold remove at h
  split at h
  · cases h; exact ⟨Kept.refl _ _, rfl⟩
  · rw [Res.bind_eq_ok] at h
    obtain ⟨q', _, h⟩ := h
    rw [Res.bind_eq_ok] at h
    obtain ⟨s1, h1, h⟩ := h
    rw [Res.bind_eq_ok] at h
    obtain ⟨b1, h2, h⟩ := h
    cases h
    have hs1 := takeFreq_base h1
    simp only at hs1
    unfold Base.removeObjBase at h2
    split at h2
    · cases h2
    · cases h2
      rw [hs1]
      exact ⟨Kept.sub (fun _ ho => List.mem_of_mem_eraseP ho), rfl⟩

theorem step_kept (K : Counter) {s s' : State R} {op : Op} {b : Bool} (h : (algo R K).step s op = .ok (b, s')) : Kept s'.base.nReq s.base s'.base := by
  cases op with
  | get r =>
    have h : (algo R K).get s r = .ok (b, s') := h
    unfold Algo.get at h
    rw [Res.bind_eq_ok] at h
    obtain ⟨⟨hit, s1⟩, h1, h⟩ := h
    simp only at h
    obtain ⟨k1, k2⟩ := find_kept s'.base.nReq (s := (algo R K).bump s) h1
    have k1 : Kept s'.base.nReq s.base s1.base := fun o ho hg => k1 o ho hg
    cases hit with
    | true => simp only [if_true] at h; cases h; exact k1
    | false =>
      simp only [Bool.false_eq_true, if_false, canInsert_eq] at h
      cases ha : admitsBase s1.base r with
      | false => simp only [ha] at h; cases h; exact k1
      | true =>
        simp only [ha] at h
        rw [Res.bind_eq_ok] at h
        obtain ⟨s2, h2, h⟩ := h
        rw [Res.bind_eq_ok] at h
        obtain ⟨s3, h3, h⟩ := h
        cases h
        obtain ⟨k3, k4⟩ := evictLoop_kept K r _ h2
        obtain ⟨k5, k6⟩ := insert_kept (s := s2) s'.base.nReq h3
        have e : s'.base.nReq = s1.base.nReq := k6.trans k4
        have k3 : Kept s1.base.nReq s1.base s2.base := fun o ho hg => k3 o ho hg
        rw [← e] at k3
        exact (k1.trans k3).trans k5
  | find r u => exact (find_kept _ h).1
  | remove id => exact (remove_kept _ h).1
  | evict r =>
    have h : (if s.base.nObj > 0 then evict s >>= fun s' => .ok (true, s') else .ok (false, s)) = .ok (b, s') := h
    split at h
    · rw [Res.bind_eq_ok] at h
      obtain ⟨s1, h1, h⟩ := h
      cases h
      obtain ⟨k1, k2⟩ := evict_kept h1
      rw [k2]; exact k1
    · cases h; exact Kept.refl _ _
  | insert r =>
    have h : (find K s r false >>= fun (hit, s0) => if hit = false ∧ (algo R K).mustEvict s0 r = false then insert s0 r >>= fun s' => .ok (true, s') else .ok (false, s0)) = .ok (b, s') := h
    rw [Res.bind_eq_ok] at h
    obtain ⟨⟨hit, s0⟩, h1, h⟩ := h
    simp only at h
    have k1 := (find_kept s'.base.nReq h1).1
    split at h
    · rw [Res.bind_eq_ok] at h
      obtain ⟨s1, h2, h⟩ := h
      cases h
      exact k1.trans (insert_kept _ h2).1
    · cases h; exact k1

/-! ## The counter -/

/-- no object has been counted more than `n` times -/
def Below (n : Nat) (s : State R) : Prop := ∀ x ∈ view s, x.cnt ≤ n

theorem field_inc {f : Nat} (h : f < 2 ^ 22 - 1) : Counter.field.inc f = Counter.exact.inc f := by
  have e1 : f ≠ 2 ^ 22 - 1 := Nat.ne_of_lt h
  have e2 : (f + 1) % 2 ^ 64 = f + 1 := Nat.mod_eq_of_lt (by omega)
  simp only [Counter.field, Counter.exact, if_neg e1, e2, Nat.succ_eq_add_one]

theorem dataHit_field {s : State R} {o : Obj Meta} (hl : o.mt.freq < 2 ^ 22 - 1)
    (hb : ∀ o' ∈ s.base.tbl, o'.id = o.id → o'.mt.freq = o.mt.freq) : dataHit Counter.field s o = dataHit Counter.exact s o := by
  have e := field_inc hl
  unfold dataHit
  rw [e]
  congr 1
  funext q'
  cases h1 : takeFreq { s with q := q' } o.id o.mt.freq with
  | error e => rfl
  | ok s1 =>
    simp only [Res.bind_ok]
    have hb1 : s1.base.modify o.id (fun o => { o with mt := { o.mt with freq := Counter.field.inc o.mt.freq } }) =
        s1.base.modify o.id (fun o => { o with mt := { o.mt with freq := Counter.exact.inc o.mt.freq } }) := by
      rw [takeFreq_base h1]
      unfold Base.modify
      congr 1
      refine List.map_congr_left (fun o' ho' => ?_)
      split
      · rename_i hid
        simp only [hb o' ho' hid, e]
      · rfl
    rw [hb1]

theorem find_field {cs md n : Nat} {s : State R} (hi : Inv cs md s) (hn : Below n s) (hl : n < 2 ^ 22 - 1) (r : Req) (u : Bool) :
    find Counter.field s r u = find Counter.exact s r u := by
  obtain ⟨l, a, h, _, _⟩ := hi
  cases u with
  | false => rw [h.findFalse, h.findFalse]
  | true =>
    cases e : s.base.lookup r.id with
    | none => rw [find, find, findBase_miss e]
    | some o =>
      rw [find, find, findBase_hit e]
      simp only [Bool.true_eq_false, if_false]
      by_cases hg : (Verif.touch r o).mt.ghost = true
      · rw [if_pos hg, if_pos hg]
      · rw [if_neg hg, if_neg hg]
        have hgf : o.mt.ghost = false := by cases hh : o.mt.ghost with
          | false => rfl
          | true => exact absurd hh hg
        have hin : r.id ∈ idsOf l := by
          by_contra hc
          rw [h.lookup_none hc e] at hgf; cases hgf
        obtain ⟨x, hx, hid⟩ := h.of_mem hin
        obtain ⟨o', g1, g2, g3, g4, _⟩ := h.obj hx
        rw [hid, e] at g1
        cases g1
        have hc : x.cnt ≤ n := hn x (by rw [h.view_eq]; exact hx)
        have hfr : o.mt.freq < 2 ^ 22 - 1 := by rw [g4]; omega
        rw [dataHit_field (s := { s with base := s.base.modify r.id (Verif.touch r) }) (o := Verif.touch r o) hfr]
        intro o1 ho1 hid1
        have h2 := h.touch r
        have e1 : (s.base.modify r.id (Verif.touch r)).lookup o1.id = some o1 := lookup_of_mem h2.rep.nodup ho1
        have e2 : (s.base.modify r.id (Verif.touch r)).lookup r.id = some (Verif.touch r o) := lookup_modify_self (fun _ => rfl) e
        rw [hid1, show (Verif.touch r o).id = r.id from g2.trans hid, e2] at e1
        cases e1; rfl

theorem loop_field (r : Req) : ∀ (m : Nat) (s : State R), (algo R Counter.field).evictLoop r m s = (algo R Counter.exact).evictLoop r m s := by
  intro m
  induction m with
  | zero => intro s; rfl
  | succ m ih =>
    intro s
    rw [Algo.evictLoop, Algo.evictLoop]
    show (if _ then (evict s >>= _) else _) = (if _ then (evict s >>= _) else _)
    congr 2
    funext s'
    exact ih s'


theorem get_field {cs md n : Nat} {s : State R} (hi : Inv cs md s) (hn : Below n s) (hl : n < 2 ^ 22 - 1) (r : Req) :
    (algo R Counter.field).get s r = (algo R Counter.exact).get s r := by
  have hb := (contract (R := R) (cs := cs) (md := md)).bump hi
  have hf := find_field hb.1 (n := n) (fun x hx => hn x hx) hl r true
  unfold Algo.get
  show (find Counter.field ((algo R Counter.exact).bump s) r true >>= _) = (find Counter.exact ((algo R Counter.exact).bump s) r true >>= _)
  rw [hf]
  congr 1
  funext p
  obtain ⟨hit, s1⟩ := p
  cases hit with
  | true => rfl
  | false =>
    simp only [Bool.false_eq_true, if_false, canInsert_eq]
    cases admitsBase s1.base r with
    | false => rfl
    | true => simp only [loop_field]; rfl

theorem step_field {cs md n : Nat} {s : State R} (hi : Inv cs md s) (hn : Below n s) (hl : n < 2 ^ 22 - 1) (op : Op) :
    (algo R Counter.field).step s op = (algo R Counter.exact).step s op := by
  cases op with
  | get r => exact get_field hi hn hl r
  | find r u => exact find_field hi hn hl r u
  | remove id => rfl
  | evict r => rfl
  | insert r =>
    show (find Counter.field s r false >>= _) = (find Counter.exact s r false >>= _)
    rw [find_field hi hn hl r false]
    rfl

theorem evictsAll_sub {cs md : Nat} {wins : Nat → Bool} {a b : St} {vs : List Item} (h : EvictsAll cs md wins a vs b) : ∀ x ∈ b.l, x ∈ a.l := by
  induction h with
  | none a => exact fun _ h => h
  | one h1 _ _ ih =>
    intro x hx
    have hx := ih x hx
    have lru : ∀ {l : List Item} {v : Item} {l' : List Item}, TakesLRU l v l' → ∀ x ∈ l', x ∈ l := by
      intro l v l' h x hx
      have h : l = l' ++ [v] := h
      rw [h]; simp [hx]
    have lfu : ∀ {l : List Item} {v : Item} {l' : List Item}, TakesLFU l v l' → ∀ x ∈ l', x ∈ l := by
      rintro l v l' ⟨a, b, h1, h2, _⟩ x hx
      rw [h2] at hx
      rw [h1]
      simp only [List.mem_append, List.mem_cons] at hx ⊢
      tauto
    rcases h1 with ⟨h1, _⟩ | ⟨_, _, h1⟩
    · exact lru h1 x hx
    · split at h1
      · exact lru h1.1 x hx
      · exact lfu h1.1 x hx

theorem step_below {cs md n : Nat} {s s' : State R} (hi : Inv cs md s) (hn : Below (n + 1) s) {op : Op} {b : Bool} (hop : Calls calls (Adaptive.Requests cs md) op)
    (h : (algo R Counter.exact).step s op = .ok (b, s')) : Below (n + 2) s' := by
  obtain ⟨l, a, hA, hb, hc⟩ := hi
  have hn : ∀ x ∈ l, x.cnt ≤ n + 1 := by rw [← hA.view_eq]; exact hn
  have hits : ∀ {id l'}, Hits l id l' → ∀ x ∈ l', x.cnt ≤ n + 2 := by
    rintro id l' ⟨c, x, d, rfl, _, rfl⟩ y hy
    rcases List.mem_cons.1 hy with rfl | hy
    · have := hn x (by simp)
      show x.cnt + 1 ≤ n + 2
      omega
    · have := hn y (by simp only [List.mem_append, List.mem_cons] at hy ⊢; tauto)
      omega
  have out : ∀ {l' a'}, Abs cs md l' a' s' → (∀ x ∈ l', x.cnt ≤ n + 2) → Below (n + 2) s' := by
    intro l' a' h1 h2 x hx
    rw [h1.view_eq] at hx
    exact h2 x hx
  cases op with
  | get r =>
    have h : (algo R Counter.exact).get s r = .ok (b, s') := h
    by_cases hin : r.id ∈ idsOf l
    · obtain ⟨s1, l', a', k1, k2, _, _, k5, _⟩ := hA.get_hit hb hc r hin
      rw [k1] at h; cases h
      exact out k2 (hits k5)
    · obtain ⟨s1, l', a', k1, k2, _, _, _, _, _, k8, k9⟩ := hA.get_miss hb hc r hop hin
      rw [k1] at h; cases h
      refine out k2 ?_
      cases ha : admitsBase s.base r with
      | false =>
        rw [(k8 ha).1]
        intro x hx
        have := hn x hx; omega
      | true =>
        obtain ⟨vs, l1, h1, rfl⟩ := k9 ha
        intro x hx
        rcases List.mem_cons.1 hx with rfl | hx
        · show 1 ≤ n + 2
          omega
        · have := hn x (evictsAll_sub h1 x hx); omega
  | find r u =>
    have h : find Counter.exact s r u = .ok (b, s') := h
    cases u with
    | false =>
      rw [hA.findFalse] at h; cases h
      exact out hA (fun x hx => by have := hn x hx; omega)
    | true =>
      by_cases hin : r.id ∈ idsOf l
      · obtain ⟨x, hx, hid⟩ := hA.of_mem hin
        obtain ⟨s1, k1, k2, _⟩ := hA.findHit r hx hid
        rw [k1] at h; cases h
        refine out k2 (hits (id := r.id) ?_)
        obtain ⟨c, d, rfl⟩ := List.append_of_mem hx
        exact ⟨c, x, d, rfl, hid, by rw [del_split hA.nodup]⟩
      · obtain ⟨s1, a1, k1, k2, _⟩ := hA.findMiss r hin Counter.exact
        rw [k1] at h; cases h
        exact out k2 (fun x hx => by have := hn x hx; omega)
  | remove id => cases hop
  | evict r =>
    have h : (if s.base.nObj > 0 then evict s >>= fun s' => .ok (true, s') else .ok (false, s)) = .ok (b, s') := h
    split at h
    · rename_i hpos
      have hne : l ≠ [] := by rintro rfl; rw [hA.nObj] at hpos; simp at hpos
      obtain ⟨s1, a1, v, e, e1, e2, e3, _⟩ := hA.evict hne (by rw [hc]; omega)
      rw [e1, Res.bind_ok] at h
      cases h
      exact out e3 (fun x hx => by have := hn x (mem_del.1 hx).1; omega)
    · cases h
      exact out hA (fun x hx => by have := hn x hx; omega)
  | insert r => cases hop.1

/-- Runs too short for the counter to overflow. -/
theorem run_field {cs md : Nat} : ∀ (ops : List Op) (k : Nat) (s : State R), Inv cs md s → Below (k + 1) s → k + ops.length < 2 ^ 22 - 1 → (∀ op ∈ ops, Calls calls (Adaptive.Requests cs md) op) →
    (algo R Counter.field).run s ops = (algo R Counter.exact).run s ops := by
  intro ops
  induction ops with
  | nil => intro k s _ _ _ _; rfl
  | cons op ops ih =>
    intro k s hi hn hl ho
    rw [Algo.run, Algo.run, step_field hi hn (by simp only [List.length_cons] at hl; omega) op]
    cases hs : (algo R Counter.exact).step s op with
    | error e => rfl
    | ok p =>
      obtain ⟨b, s1⟩ := p
      simp only [Res.bind_ok]
      have hop := ho op (by simp)
      have hi1 : Inv cs md s1 := (contract (R := R) (cs := cs) (md := md)).reach (ops := [op]) (out := [b]) hi (by simpa using hop) (by simp [Reaches, Algo.run, hs])
      rw [ih (k + 1) s1 hi1 (step_below hi hn hop hs) (by simp only [List.length_cons] at hl; omega) (fun o h => ho o (by simp [h]))]

/-! ## Memory -/

theorem chooses_nil {wins : Nat → Bool} {ps ps' : List Nat} {v : Item} {e : Expert} {l' : List Item} : ¬ Chooses wins [] ps v e l' ps' := by
  have lru : ∀ {v l'}, ¬ TakesLRU [] v l' := by
    intro v l' h
    have h : [] = l' ++ [v] := h
    simp at h
  have lfu : ∀ {v l'}, ¬ TakesLFU [] v l' := by
    rintro v l' ⟨a, b, h, _⟩
    simp at h
  rintro (⟨h, _⟩ | ⟨_, _, h⟩)
  · exact lru h
  · split at h
    · exact lru h.1
    · exact lfu h.1

theorem evictsAll_single {cs md : Nat} {wins : Nat → Bool} {a b : St} {vs : List Item} (h : EvictsAll cs md wins a vs b) (ha : a.l.length ≤ 1) (hb : b.l = []) :
    ∀ y, b.g.both y ↔ a.g.both y ∨ y ∈ cont a.l := by
  cases h with
  | none => intro y; rw [hb]; simp [cont]
  | one h1 h2 h3 =>
    rename_i c v vs e
    match hl : a.l, ha with
    | [], _ => rw [hl] at h1; exact absurd h1 chooses_nil
    | [x], _ =>
      rw [hl] at h1
      have hlru : TakesLRU [x] x [] := rfl
      have hlfu : TakesLFU [x] x [] := ⟨[], [], rfl, rfl, by simp, by simp⟩
      rcases h1 with ⟨g1, g2, rfl, _⟩ | ⟨g, _⟩
      · have := takesLRU_unique hlru g1
        subst this
        have g1 : [x] = c.l ++ [x] := g1
        have hc : c.l = [] := by simpa using g1
        have hcb : b = c := by
          cases h3 with
          | none => rfl
          | one k1 _ _ => rw [hc] at k1; exact absurd k1 chooses_nil
        subst hcb
        obtain ⟨_, _, h2⟩ := h2
        intro y
        rw [h2]
        simp [cont, or_comm]
      · exact absurd ⟨x, [], hlru, hlfu⟩ g

/-- a cache for one object that has seen the objects below `n` -/
def Seen (n : Nat) (s : State R) : Prop :=
  ∃ l a, Abs 1 0 l a s ∧ Bounded 1 0 a ∧ s.candVt = -1 ∧ s.base.adm = .none ∧ l.length ≤ 1 ∧ (∀ x ∈ l, x.size = 1 ∧ x.id < n) ∧ (∀ i < n, (i, 1) ∈ cont l ∨ (i, 1) ∈ a .both) ∧ (n = 0 ∨ l.length = 1)

theorem seen_step {n : Nat} {s : State R} (h : Seen n s) : ∃ s', (algo R Counter.exact).get s ⟨n, 1, -2⟩ = .ok (false, s') ∧ Seen (n + 1) s' := by
  obtain ⟨l, a, hA, hb, hc, had, hl, hx, hs, _⟩ := h
  have hn : n ∉ idsOf l := by
    intro hm
    obtain ⟨x, h1, h2⟩ := List.mem_map.1 hm
    have h3 := (hx x h1).2
    rw [h2] at h3
    exact Nat.lt_irrefl _ h3
  obtain ⟨s', l', a', k1, k2, k3, k4, _, _, k7, _, k9⟩ := hA.get_miss hb hc ⟨n, 1, -2⟩ (by intro _; simp [u32]) hn
  have ha : admitsBase s.base ⟨n, 1, -2⟩ = true := by
    simp [admitsBase, had, hA.mdz, hA.csz, Adm.admit]
  obtain ⟨vs, l1, e1, rfl⟩ := k9 ha
  have hsub := evictsAll_sub e1
  have hl1 : l1 = [] := by
    cases l1 with
    | nil => rfl
    | cons y l1 =>
      have h1 := k2.cap
      have := (hx y (hsub y (by simp))).1
      simp only [cont, List.map_cons, charge, Item.entry, this] at h1
      omega
  subst hl1
  have hboth := evictsAll_single e1 hl rfl
  refine ⟨s', k1, _, a', k2, k3, k4, by rw [k7, had]; rfl, by simp, ?_, ?_, Or.inr rfl⟩
  · intro x h1
    simp only [List.mem_singleton] at h1
    subst h1
    exact ⟨rfl, Nat.lt_succ_self _⟩
  · intro i hi
    by_cases e : i = n
    · subst e; left; simp [cont, Item.entry]
    · right
      have hi' : i < n := by omega
      refine (hboth (i, 1)).2 ?_
      rcases hs i hi' with h1 | h1
      · exact Or.inr h1
      · exact Or.inl ⟨h1, e⟩

theorem seen_run (n : Nat) : ∀ (k : Nat) {s : State R}, Seen k s → ∃ out s', (algo R Counter.exact).run s ((List.range' k n).map (fun i => Op.get ⟨i, 1, -2⟩)) = .ok (out, s') ∧ Seen (k + n) s' := by
  induction n with
  | zero => intro k s h; exact ⟨[], s, rfl, h⟩
  | succ n ih =>
    intro k s h
    obtain ⟨s1, h1, h2⟩ := seen_step h
    obtain ⟨out, s', h3, h4⟩ := ih (k + 1) h2
    refine ⟨false :: out, s', ?_, by rw [show k + (n + 1) = k + 1 + n by omega]; exact h4⟩
    rw [List.range'_succ, List.map_cons, Algo.run]
    show ((algo R Counter.exact).get s ⟨k, 1, -2⟩ >>= _) = _
    rw [h1, Res.bind_ok]
    simp only [h3, Res.bind_ok]

end Verif.LeCaR
