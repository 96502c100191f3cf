import Verif.Proof.Sampled
import Verif.Proof.CondBase
import Verif.Spec.Optimal
/-!
# BeladySize
-/

namespace Verif.BeladySize
open Verif Spec Sampled

abbrev Inv (cs md : Nat) (s : State) : Prop := BInv cs md s.base

variable {cs md n : Nat} {s s' : State}

theorem find_hit {r : Req} {o : Obj Int} (h : s.base.lookup r.id = some o) (hn : noNext r = false) :
    find s r true = .ok (true, { s with base := s.base.modify r.id (fun o => { touch r o with mt := r.next }) }) := by
  have hid : o.id = r.id := (lookup_some_mem h).2
  simp only [find, findBase_hit h, if_true, hn, Bool.false_eq_true, if_false]
  have : (touch r o).id = r.id := hid
  rw [this, Rand.modify_modify s.base r.id (touch r) _ (fun _ => rfl)]

theorem find_miss {r : Req} (h : s.base.lookup r.id = none) : find s r true = .ok (false, s) := by
  simp only [find, findBase_miss h]

theorem remove_hit {id : ObjId} {o : Obj Int} (h : Inv cs md s) (ho : s.base.lookup id = some o) :
    ∃ s', remove s id = .ok (true, s') ∧ Inv cs md s' ∧ s'.base.tbl = s.base.tbl.eraseP (fun o => o.id == id) ∧ s'.base.nReq = s.base.nReq ∧
      s'.picks = s.picks ∧ s'.base.adm = s.base.adm ∧ s.base.cached.Perm ((o.id, o.size) :: s'.base.cached) := by
  have hid := (lookup_some_mem ho).2
  obtain ⟨b', h1, h2, h3, _, h5, h6, h7⟩ := h.remove ho
  rw [← hid] at h1
  exact ⟨{ s with base := b' }, by simp only [remove, ho, h1, Res.bind_ok], h2, h3, h7, rfl, h6, h5⟩

/-- A hit on an object that is not used again. -/
theorem find_last {r : Req} {o : Obj Int} (hi : Inv cs md s) (h : s.base.lookup r.id = some o) (hn : noNext r = true) :
    ∃ s', find s r true = .ok (true, s') ∧ Inv cs md s' ∧ s'.base.nReq = s.base.nReq ∧ s'.picks = s.picks ∧ s'.base.adm = s.base.adm ∧
      s'.base.tbl = s.base.tbl.eraseP (fun o => o.id == r.id) ∧ s.base.cached.Perm ((o.id, o.size) :: s'.base.cached) := by
  have hid : o.id = r.id := (lookup_some_mem h).2
  have hi1 : Inv cs md { s with base := s.base.modify r.id (touch r) } := hi.modify r.id (touch r) (fun _ => rfl) (fun _ => rfl)
  obtain ⟨s', h1, h2, h3, h4, h5, h6, h7⟩ := remove_hit (s := { s with base := s.base.modify r.id (touch r) }) (id := r.id) (o := touch r o) hi1
    (lookup_modify_self (f := touch r) (fun _ => rfl) h)
  refine ⟨s', ?_, h2, h4, h5, h6, ?_, ?_⟩
  · have : (touch r o).id = r.id := hid
    simp only [find, findBase_hit h, if_true, hn, this, h1, Res.bind_ok]
  · rw [h3]
    simp only [Base.modify]
    have key : ∀ l : List (Obj Int), (l.map (fun o => if o.id = r.id then touch r o else o)).eraseP (fun o => o.id == r.id) =
        l.eraseP (fun o => o.id == r.id) ∨ (l.map (·.id)).count r.id ≥ 2 := by
      intro l
      induction l with
      | nil => left; rfl
      | cons a l ih =>
        by_cases e : a.id = r.id
        · by_cases c : ∃ x ∈ l, x.id = r.id
          · right
            obtain ⟨x, hx, hxr⟩ := c
            have : r.id ∈ l.map (·.id) := List.mem_map.2 ⟨x, hx, hxr⟩
            have := List.count_pos_iff.2 this
            rw [List.map_cons, e, List.count_cons_self]; exact Nat.succ_le_succ this
          · left
            have c : ∀ x ∈ l, x.id ≠ r.id := fun x hx h => c ⟨x, hx, h⟩
            have e2 : l.map (fun o => if o.id = r.id then touch r o else o) = l := by
              conv_rhs => rw [← List.map_id l]
              apply List.map_congr_left
              intro x hx; simp [c x hx]
            have e3 : (touch r a).id = r.id := e
            rw [List.map_cons, e2, if_pos e, List.eraseP_cons_of_pos (by simpa using e3), List.eraseP_cons_of_pos (by simpa using e)]
        · rcases ih with ih | ih
          · left
            rw [List.map_cons, if_neg e, List.eraseP_cons_of_neg (by simpa using e), List.eraseP_cons_of_neg (by simpa using e), ih]
          · right; simp only [List.map_cons, List.count_cons]; omega
    rcases key s.base.tbl with h | h
    · exact h
    · have := List.nodup_iff_count_le_one.1 hi.inv.nodup r.id
      omega
  · have e : ({ s with base := s.base.modify r.id (touch r) } : State).base.cached = s.base.cached :=
      Base.cached_modify s.base r.id (touch r) (fun _ => rfl) (fun _ => rfl)
    rw [e] at h7
    exact h7

theorem toEvict_mem : ∀ (k : Nat) (s s1 : State) (id : ObjId), s.base.tbl ≠ [] → toEvict n k s = .ok (id, s1) →
    s1.base = s.base ∧ ∃ o ∈ s.base.tbl, o.id = id := by
  intro k
  induction k with
  | zero => intro s s1 id _ h; simp [toEvict] at h
  | succ k ih =>
    intro s s1 id hne h
    obtain ⟨res, h1, h2⟩ := pickBest_spec (better := fun (new old : Int) => decide (old < new)) ⟨fun h => by simp at h ⊢; omega, fun h1 h2 => by simp at h1 h2 ⊢; omega⟩
      (score s.base.nReq) hne n s.picks none (-1)
    simp only [toEvict, h1, Res.bind_ok] at h
    rcases h2 with ⟨rfl, _⟩ | ⟨o, h3, rfl, _⟩
    · exact ih { s with picks := s.picks.drop n } s1 id hne h
    · cases h; exact ⟨rfl, o, draws_mem h3, rfl⟩

theorem toEvict_nil (h : s.base.tbl = []) : ∀ k s1, s.base = s1.base → ∀ x, toEvict n k s1 ≠ .ok x := by
  intro k
  induction k with
  | zero => intro s1 _ x h; simp [toEvict] at h
  | succ k ih =>
    intro s1 e x hx
    cases n with
    | zero =>
      simp only [toEvict, pickBest, Res.bind_ok] at hx
      exact ih { s1 with picks := s1.picks } e x hx
    | succ n =>
      simp only [toEvict] at hx
      rw [Res.bind_eq_ok] at hx
      obtain ⟨p, h1, _⟩ := hx
      rw [← e] at h1
      simp [pickBest, randObj, h] at h1

theorem evict_ok (hi : Inv cs md s) (he : evict n s = .ok s') :
    Inv cs md s' ∧ ∃ v, s.base.cached.Perm (v :: s'.base.cached) := by
  unfold evict at he
  rw [Res.bind_eq_ok] at he
  obtain ⟨⟨id, s1⟩, h1, h2⟩ := he
  rw [Res.bind_eq_ok] at h2
  obtain ⟨b, h3, h4⟩ := h2
  cases h4
  by_cases hne : s.base.tbl = []
  · exact absurd h1 (toEvict_nil hne _ s rfl _)
  · obtain ⟨e, o, ho, rfl⟩ := toEvict_mem _ _ _ _ hne h1
    obtain ⟨b', g1, g2, _, _, g5, _, _⟩ := hi.remove (lookup_of_mem hi.inv.nodup ho)
    have h3 : s1.base.removeObjBase o.id = .ok b := h3
    rw [e, g1] at h3
    cases h3
    exact ⟨g2, _, g5⟩

theorem inv_init (cs md : Nat) (adm : Adm) (picks : List Nat) : Inv cs md (init cs md adm picks) := ⟨baseInv_init _ _ _, rfl, rfl⟩

theorem spec (n cs md : Nat) : CSpec (algo n) (fun s => s.base) (fun s b => { s with base := b }) (Inv cs md) cs md where
  base_set := fun _ _ => rfl
  occ := fun _ => rfl
  nObj := fun _ => rfl
  csz := fun _ => rfl
  mdz := fun _ => rfl
  bumpEq := fun _ => rfl
  canEq := fun _ _ => rfl
  inv := fun h => h
  bump := fun h => h.bump
  adm := fun a h => h.setAdm a
  findF := fun {s b s'} r h hf => by
    have hf : find s r false = .ok (b, s') := hf
    simp only [find, findBase_false] at hf
    cases hl : s.base.lookup r.id with
    | none => rw [hl] at hf; cases hf; exact ⟨rfl, rfl⟩
    | some o => simp only [hl, Bool.false_eq_true, if_false] at hf; cases hf; exact ⟨rfl, rfl⟩
  findHit := fun {s b s'} r o h hl hf => by
    have hf : find s r true = .ok (b, s') := hf
    cases hn : noNext r with
    | false =>
      rw [find_hit hl hn] at hf
      cases hf
      refine ⟨rfl, h.modify r.id (fun o => { touch r o with mt := r.next }) (fun _ => rfl) (fun _ => rfl), ?_⟩
      rw [Base.cached_modify s.base r.id (fun o => { touch r o with mt := r.next }) (fun _ => rfl) (fun _ => rfl)]
    | true =>
      obtain ⟨s1, h1, h2, _, _, _, _, h3⟩ := find_last h hl hn
      rw [h1] at hf
      cases hf
      exact ⟨rfl, h2, (List.Sublist.subperm (List.sublist_cons_self _ _)).trans h3.symm.subperm⟩
  findMiss := fun {s b s'} r h hl hf => by
    have hf : find s r true = .ok (b, s') := hf
    rw [find_miss hl] at hf
    cases hf; exact ⟨rfl, rfl⟩
  evict := fun {s s'} r h he => evict_ok h he
  insert := fun {s s'} r h hl hroom hok he => by
    have he : insert s r = .ok s' := he
    unfold insert at he
    cases hn : noNext r with
    | true => rw [hn] at he; cases he; exact ⟨h, List.Sublist.subperm (List.sublist_cons_self _ _)⟩
    | false =>
      simp only [hn, Bool.false_eq_true, if_false] at he
      cases he
      refine ⟨h.insert _ r (lookup_none_iff'.1 hl) hroom hok, ?_⟩
      rw [cached_insertBase]
  removeMiss := fun _ {s b s'} id h hl he => by
    have he : remove s id = .ok (b, s') := he
    simp only [remove, hl] at he
    cases he; exact ⟨rfl, rfl⟩
  removeHit := fun _ {s b s'} id o h hl he => by
    have he : remove s id = .ok (b, s') := he
    obtain ⟨s1, h1, h2, _, _, _, _, h3⟩ := remove_hit h hl
    rw [h1] at he
    cases he; exact ⟨rfl, h2, h3⟩

/-! ### Annotated traces -/

abbrev vt (i : Nat) : Int := i + 1

theorem nextUse_mem : ∀ (ids : List ObjId) (t : Nat) (x : ObjId), x ∈ ids → nextUse vt t ids x = t + ids.idxOf x + 1
  | y :: ids, t, x, h => by
    by_cases e : y = x
    · subst e; simp [nextUse]
    · have h : x ∈ ids := by
        rcases List.mem_cons.1 h with h | h
        · exact absurd h.symm e
        · exact h
      rw [nextUse, if_neg e, nextUse_mem ids (t + 1) x h, List.idxOf_cons_ne _ e]
      push_cast; omega

theorem nextUse_not : ∀ (ids : List ObjId) (t : Nat) (x : ObjId), x ∉ ids → nextUse vt t ids x = int64Max
  | [], _, _, _ => rfl
  | y :: ids, t, x, h => by
    have h1 : y ≠ x := fun e => h (by simp [e])
    rw [nextUse, if_neg h1, nextUse_not ids (t + 1) x (fun e => h (by simp [e]))]

/-- Before the request number `t`, when `rest` is what remains of the trace. -/
structure TInv (cs md t : Nat) (rest : List ObjId) (s : State) : Prop where
  b : Inv cs md s
  nReq : s.base.nReq = t
  next : ∀ o ∈ s.base.tbl, o.id ∈ rest ∧ o.mt = t + rest.idxOf o.id + 1

/-- size times the number of requests before the object is requested again -/
def weight (rest : List ObjId) (x : ObjId × Nat) : Int := x.2 * (rest.idxOf x.1 : Nat)

theorem score_eq {t : Nat} {rest : List ObjId} {o : Obj Int} (hlen : t + rest.length < 2 ^ 31) (ho : o.id ∈ rest) (hsz : o.size < u32)
    (hmt : o.mt = t + rest.idxOf o.id + 1) : score (t + 1) o = weight rest (o.id, o.size) := by
  unfold score weight
  have h1 : rest.idxOf o.id < rest.length := List.idxOf_lt_length_iff.2 ho
  have e : o.mt - ((t + 1 : Nat) : Int) = (rest.idxOf o.id : Nat) := by rw [hmt]; push_cast; omega
  generalize rest.idxOf o.id = k at *
  have hk : k < 2 ^ 31 := by omega
  rw [e]
  have e1 : Int.bmod (k : Int) (2 ^ 64) = k := Int.bmod_eq_of_le (by omega) (by omega)
  rw [e1]
  have e2 : o.size * k < 2 ^ 63 := by
    calc o.size * k ≤ 2 ^ 32 * k := Nat.mul_le_mul_right k (by simp only [u32] at hsz; omega)
      _ < 2 ^ 32 * 2 ^ 31 := by omega
      _ = 2 ^ 63 := by norm_num
  have e3 : ((o.size : Int) * (k : Int)) = ((o.size * k : Nat) : Int) := by push_cast; rfl
  rw [e3]
  generalize o.size * k = m at *
  exact Int.bmod_eq_of_le (by omega) (by omega)

/-- state while request number `t + 1` is being handled -/
structure Mid (cs md t : Nat) (rest : List ObjId) (s : State) : Prop where
  b : Inv cs md s
  nReq : s.base.nReq = t + 1
  next : ∀ o ∈ s.base.tbl, o.id ∈ rest ∧ o.mt = t + rest.idxOf o.id + 1

theorem evict_spec {t : Nat} {rest : List ObjId} (hn : 0 < n) (hlen : t + rest.length < 2 ^ 31) (h : Mid cs md t rest s) (hne : s.base.tbl ≠ []) :
    ∃ v ∈ Sample.sampled s.base.cached s.picks n, ∃ s', evict n s = .ok s' ∧ Mid cs md t rest s' ∧ s'.base.adm = s.base.adm ∧
      s'.base.cached = s.base.cached.erase v ∧ s'.picks = s.picks.drop n ∧ s'.base.tbl.length < s.base.tbl.length ∧
      s.base.cached.Perm (v :: s'.base.cached) ∧
      ∀ x ∈ Sample.sampled s.base.cached s.picks n, - weight rest v ≤ - weight rest x := by
  obtain ⟨res, h1, h2⟩ := pickBest_spec (better := fun (new old : Int) => decide (old < new)) ⟨fun h => by simp at h ⊢; omega, fun h1 h2 => by simp at h1 h2 ⊢; omega⟩
      (score s.base.nReq) hne n s.picks none (-1)
  have hsc : ∀ o ∈ draws s.base.tbl s.picks n, score s.base.nReq o = weight rest (o.id, o.size) := by
    intro o ho
    have hm := draws_mem ho
    obtain ⟨g1, g2⟩ := h.next o hm
    have := h.b.inv.small o hm
    rw [h.nReq]
    exact score_eq hlen g1 (by omega) g2
  obtain ⟨o, ho, hres, hbest⟩ : ∃ o ∈ draws s.base.tbl s.picks n, res = some o ∧ ∀ x ∈ draws s.base.tbl s.picks n, decide (score s.base.nReq o < score s.base.nReq x) = false := by
    rcases h2 with ⟨rfl, h3⟩ | ⟨o, h3, rfl, _, h5⟩
    · exfalso
      obtain ⟨m, rfl⟩ : ∃ m, n = m + 1 := ⟨n - 1, by omega⟩
      obtain ⟨o, _, g2⟩ := randObj_spec (picks := s.picks) hne
      have ho : o ∈ draws s.base.tbl s.picks (m + 1) := by rw [draws_succ m g2]; simp
      have := h3 o ho
      rw [hsc o ho] at this
      have hw : (0 : Int) ≤ weight rest (o.id, o.size) := by
        unfold weight; exact_mod_cast Nat.zero_le _
      simp at this; omega
    · exact ⟨o, h3, rfl, h5⟩
  have hm := draws_mem ho
  obtain ⟨b', g1, g2, g3, g4, g5, g6, g7⟩ := h.b.remove (lookup_of_mem h.b.inv.nodup hm)
  have hsam : ∀ x, x ∈ Sample.sampled s.base.cached s.picks n ↔ ∃ o ∈ draws s.base.tbl s.picks n, (o.id, o.size) = x := by
    intro x; rw [← draws_sampled, List.mem_map]
  refine ⟨(o.id, o.size), (hsam _).2 ⟨o, ho, rfl⟩, { s with base := b', picks := s.picks.drop n }, ?_, ⟨g2, g7.trans h.nReq, ?_⟩, g6, ?_, rfl, ?_, g5, ?_⟩
  · unfold evict
    simp only [toEvict, h1, hres, Res.bind_ok]
    have g1' : s.base.evictBase o.id = .ok b' := g1
    rw [g1', Res.bind_ok]
  · intro x hx
    have hx : x ∈ b'.tbl := hx
    rw [g3] at hx
    exact h.next x (List.mem_of_mem_eraseP hx)
  · exact cached_erase h.b.inv.nodup hm g3
  · have := g4.length_eq; simp only [List.length_cons] at this; show b'.tbl.length < _; omega
  · intro x hx
    obtain ⟨y, hy, rfl⟩ := (hsam x).1 hx
    have := hbest y hy
    rw [hsc y hy, hsc o ho] at this
    simp at this; omega

theorem loop_victims {t : Nat} {rest : List ObjId} (hn : 0 < n) (hlen : t + rest.length < 2 ^ 31) (r : Req) (hr : r.size + md ≤ cs) :
    ∀ (k : Nat) (s : State), Mid cs md t rest s → s.base.tbl.length < k →
      ∃ s' vs, (algo n).evictLoop r k s = .ok s' ∧ Mid cs md t rest s' ∧ (algo n).mustEvict s' r = false ∧ s'.base.adm = s.base.adm ∧
        Sample.Victims n (fun x => - weight rest x) s.base.cached s.picks vs s'.base.cached s'.picks ∧
        ∀ us v, vs = us ++ [v] → bytes md (v :: s'.base.cached) + r.size + md > cs := by
  intro k
  induction k with
  | zero => intro s _ h; omega
  | succ k ih =>
    intro s h hk
    unfold Algo.evictLoop
    cases hme : (algo n).mustEvict s r with
    | false => exact ⟨s, [], by simp, h, hme, rfl, .nil _ _, by simp⟩
    | true =>
      have hne : s.base.tbl ≠ [] := (spec n cs md).tbl_ne h.b hr hme
      obtain ⟨v, h1, s1, h2, h3, h4, h5, h6, h7, h8, h9⟩ := evict_spec hn hlen h hne
      obtain ⟨s', vs, g1, g2, g3, g4, g5, g6⟩ := ih s1 h3 (by omega)
      have h2 : (algo n).evict s r = .ok s1 := h2
      refine ⟨s', v :: vs, by simp only [if_true, h2, Res.bind_ok]; exact g1, g2, g3, g4.trans h4, .cons h1 h9 (by rw [← h5, ← h6]; exact g5), ?_⟩
      intro us w huw
      cases us with
      | nil =>
        simp only [List.nil_append, List.cons.injEq] at huw
        obtain ⟨rfl, rfl⟩ := huw
        have g5 : s1.base.cached = s'.base.cached := by
          generalize s'.base.cached = c at g5
          generalize s1.base.cached = c1 at g5
          generalize s'.picks = q at g5
          cases g5; rfl
        simp only [Algo.mustEvict, decide_eq_true_eq] at hme
        simp only [algo] at hme
        rw [h.b.inv.occ_eq, h.b.cs, h.b.md] at hme
        rw [bytes_eq_charge, ← g5, ← charge_perm h8]
        omega
      | cons a us =>
        simp only [List.cons_append, List.cons.injEq] at huw
        exact g6 us w huw.2

theorem noNext_iff {t : Nat} {post : List ObjId} {r : Req} (hlen : t + post.length < 2 ^ 31) (h : r.next = nextUse vt (t + 1) post r.id) :
    noNext r = decide (r.id ∉ post) := by
  unfold noNext
  by_cases e : r.id ∈ post
  · rw [nextUse_mem _ _ _ e] at h
    have h1 : post.idxOf r.id < post.length := List.idxOf_lt_length_iff.2 e
    rw [h]
    simp only [e, not_true_eq_false, decide_false, Bool.or_eq_false_iff, beq_eq_false_iff_ne, ne_eq, int64Max]
    constructor <;> push_cast <;> omega
  · rw [nextUse_not _ _ _ e] at h
    simp [h, e]

theorem erase_ne {l : List (Obj Int)} {id : ObjId} (hn : (l.map (·.id)).Nodup) {x : Obj Int} (h : x ∈ l.eraseP (fun o => o.id == id)) : x.id ≠ id := by
  intro e
  by_cases hex : ∃ a ∈ l, a.id = id
  · obtain ⟨a, ha, hai⟩ := hex
    obtain ⟨a, l1, l2, h1, h2, h3, h4⟩ := List.exists_of_eraseP (p := fun o : Obj Int => o.id == id) ha (by simpa using hai)
    rw [h4] at h
    subst h3
    simp only [List.map_append, List.map_cons, List.nodup_append, List.nodup_cons] at hn
    have hai : a.id = id := by simpa using h2
    rcases List.mem_append.1 h with h | h
    · exact hn.2.2 x.id (List.mem_map_of_mem (f := (·.id)) h) a.id (by simp) (e.trans hai.symm)
    · exact hn.2.1.1 (List.mem_map.2 ⟨x, h, e.trans hai.symm⟩)
  · exact hex ⟨x, List.mem_of_mem_eraseP h, e⟩

/-- One request of an annotated trace. -/
theorem get_step {t : Nat} {post : List ObjId} (hn : 0 < n) {r : Req} (hlen : t + (post.length + 1) < 2 ^ 31) (hok : SizeOk md r)
    (hann : r.next = nextUse vt (t + 1) post r.id) (h : TInv cs md t (r.id :: post) s) :
    ∃ s', (algo n).get s r = .ok (decide (r.id ∈ s.base.cached.ids), s') ∧ TInv cs md (t + 1) post s' ∧
      s'.base.adm = (if r.id ∈ s.base.cached.ids then s.base.adm else (s.base.adm.admit r).2) ∧
      if r.id ∈ s.base.cached.ids then
        s'.picks = s.picks ∧ s'.base.cached.Perm (if r.id ∈ post then s.base.cached else s.base.cached.filter (fun x => x.1 ≠ r.id))
      else if admitsBase s.base r = true then
        ∃ vs kept, Sample.Victims n (fun x => - weight (r.id :: post) x) s.base.cached s.picks vs kept s'.picks ∧
          s'.base.cached = (if r.id ∈ post then (r.id, r.size % u32) :: kept else kept) ∧
          ∀ us v, vs = us ++ [v] → bytes md (v :: kept) + r.size + md > cs
      else s'.base.cached = s.base.cached ∧ s'.picks = s.picks := by
  have hnn := noNext_iff (by omega) hann
  have hmid : Mid cs md t (r.id :: post) { s with base := s.base.bump } := ⟨h.b.bump, by rw [← h.nReq]; rfl, h.next⟩
  -- what the invariant says about objects other than the requested one
  have other : ∀ o : Obj Int, o.id ≠ r.id → (o.id ∈ r.id :: post ∧ o.mt = t + (r.id :: post).idxOf o.id + 1) →
      o.id ∈ post ∧ o.mt = ((t + 1 : Nat) : Int) + post.idxOf o.id + 1 := by
    intro o hne ⟨h1, h2⟩
    have hm : o.id ∈ post := (List.mem_cons.1 h1).resolve_left hne
    rw [List.idxOf_cons_ne _ (fun e => hne e.symm)] at h2
    exact ⟨hm, by rw [h2]; push_cast; omega⟩
  by_cases hin : r.id ∈ s.base.cached.ids
  · have : (s.base.lookup r.id).isSome = true := by rw [lookup_isSome_iff, decide_eq_true_eq]; exact hin
    obtain ⟨o, ho⟩ := Option.isSome_iff_exists.1 this
    have hob : ({ s with base := s.base.bump } : State).base.lookup r.id = some o := ho
    simp only [if_pos hin]; rw [decide_eq_true hin]
    by_cases hp : r.id ∈ post
    · have hf := find_hit hob (by rw [hnn]; simp [hp])
      refine ⟨{ s with base := s.base.bump.modify r.id (fun o => { touch r o with mt := r.next }) }, get_hit (A := algo n) hf, ⟨?_, ?_, ?_⟩, rfl, rfl, ?_⟩
      · exact h.b.bump.modify r.id (fun o => { touch r o with mt := r.next }) (fun _ => rfl) (fun _ => rfl)
      · rw [← h.nReq]; rfl
      · intro x hx
        have hx : x ∈ (s.base.bump.tbl.map (fun o => if o.id = r.id then { touch r o with mt := r.next } else o)) := hx
        obtain ⟨y, hy, e⟩ := List.mem_map.1 hx
        have hy : y ∈ s.base.tbl := hy
        by_cases hyr : y.id = r.id
        · rw [if_pos hyr] at e
          subst e
          have hyr' : (touch r y).id = r.id := hyr
          refine ⟨by show (touch r y).id ∈ post; rw [hyr']; exact hp, ?_⟩
          show r.next = ((t + 1 : Nat) : Int) + (post.idxOf (touch r y).id : Nat) + 1
          rw [hyr', hann, nextUse_mem _ _ _ hp]
        · rw [if_neg hyr] at e
          subst e
          exact other y hyr (h.next y hy)
      · rw [if_pos hp]
        show (s.base.bump.modify r.id (fun o => { touch r o with mt := r.next })).cached.Perm _
        rw [Base.cached_modify s.base.bump r.id (fun o => { touch r o with mt := r.next }) (fun _ => rfl) (fun _ => rfl)]
        exact List.Perm.refl _
    · obtain ⟨s', f1, f2, f3, f4, f5, f6, f7⟩ := find_last hmid.b hob (by rw [hnn]; simp [hp])
      refine ⟨s', get_hit (A := algo n) f1, ⟨f2, f3.trans hmid.nReq, ?_⟩, f5, f4, ?_⟩
      · intro x hx
        rw [f6] at hx
        exact other x (erase_ne h.b.inv.nodup hx) (h.next x (List.mem_of_mem_eraseP hx))
      · rw [if_neg hp]
        have hid : o.id = r.id := (lookup_some_mem ho).2
        have hnd : s.base.cached.ids.Nodup := by rw [Contents.ids, map_id_eq]; exact h.b.inv.nodup
        have := filter_cons_self hnd f7
        rw [hid] at this
        exact this
  · simp only [if_neg hin]; rw [decide_eq_false hin]
    have hno : ({ s with base := s.base.bump } : State).base.lookup r.id = none := lookup_none_iff'.2 hin
    have hf : (algo n).find ((algo n).bump s) r true = .ok (false, { s with base := s.base.bump }) := find_miss hno
    have hnot : ∀ o ∈ s.base.tbl, o.id ≠ r.id := lookup_none_iff.1 hno
    have hcan : (algo n).canInsert { s with base := s.base.bump } r =
        (admitsBase s.base r, { s with base := { s.base.bump with adm := (s.base.adm.admit r).2 } }) := by
      show ((s.base.bump.canInsertDefault r).1, _) = _
      rw [canInsertDefault_eq]; rfl
    by_cases ha : admitsBase s.base r = true
    · simp only [if_pos ha]
      rw [ha] at hcan
      have hfit : r.size + md ≤ cs := by
        have ha' := ha
        simp only [admitsBase, Bool.and_eq_true, decide_eq_true_eq] at ha'
        rw [h.b.md, h.b.cs] at ha'; exact ha'.2
      have hmid2 : Mid cs md t (r.id :: post) { s with base := { s.base.bump with adm := (s.base.adm.admit r).2 } } :=
        ⟨hmid.b.setAdm _, hmid.nReq, hmid.next⟩
      obtain ⟨s3, vs, g1, g2, g3, g4, g5, g6⟩ := loop_victims hn (by simpa using hlen) r hfit
        ((algo n).fuel { s with base := { s.base.bump with adm := (s.base.adm.admit r).2 } }) _ hmid2 (Nat.lt_succ_self _)
      have hsub : s3.base.cached.Subperm s.base.cached := by
        have := (spec n cs md).cond.loop r _ _ _ hmid2.b g1
        exact this.2.1
      have hno3 : r.id ∉ s3.base.cached.ids := notMem_ids_of_subperm hsub hin
      have hnx : ∀ o ∈ s3.base.tbl, o.id ≠ r.id := lookup_none_iff.1 (lookup_none_iff'.2 hno3)
      by_cases hp : r.id ∈ post
      · have hi3 : (algo n).insert s3 r = .ok { s3 with base := s3.base.insertBase r.next r } := by
          show insert s3 r = _
          unfold insert; rw [hnn]; simp [hp]
        refine ⟨_, get_accept hf hcan g1 hi3, ⟨g2.b.insert _ r hno3 ((spec n cs md).room g2.b g3) hok, g2.nReq, ?_⟩, g4, vs, s3.base.cached, g5, ?_, g6⟩
        · intro x hx
          rcases List.mem_cons.1 hx with rfl | hx
          · refine ⟨hp, ?_⟩
            show r.next = ((t + 1 : Nat) : Int) + (post.idxOf r.id : Nat) + 1
            rw [hann, nextUse_mem _ _ _ hp]
          · exact other x (hnx x hx) (g2.next x hx)
        · rw [if_pos hp]; exact cached_insertBase _ _ _
      · have hi3 : (algo n).insert s3 r = .ok s3 := by
          show insert s3 r = _
          unfold insert; rw [hnn]; simp [hp]
        refine ⟨_, get_accept hf hcan g1 hi3, ⟨g2.b, g2.nReq, fun x hx => other x (hnx x hx) (g2.next x hx)⟩, g4, vs, s3.base.cached, g5, by rw [if_neg hp], g6⟩
    · simp only [if_neg ha]
      have ha : admitsBase s.base r = false := by simpa using ha
      rw [ha] at hcan
      exact ⟨_, get_reject hf hcan, ⟨hmid.b.setAdm _, hmid.nReq, fun x hx => other x (hnot x hx) (h.next x hx)⟩, rfl, rfl, rfl⟩

theorem annotated_append : ∀ (pre : List Req) (t : Nat) (post : List Req), Annotated vt t (pre ++ post) → Annotated vt (t + pre.length) post
  | [], t, post, h => h
  | r :: pre, t, post, h => by
    have := annotated_append pre (t + 1) post h.2
    rw [List.length_cons]
    have e : t + (pre.length + 1) = t + 1 + pre.length := by omega
    rw [e]; exact this

/-- A whole annotated trace, up to any point. -/
theorem run_trace (hn : 0 < n) : ∀ (pre post : List Req) (t : Nat) (s : State), t + (pre.length + post.length) < 2 ^ 31 → (∀ r ∈ pre, SizeOk md r) →
    Annotated vt t (pre ++ post) → TInv cs md t ((pre ++ post).map Req.id) s →
    ∃ out s', (algo n).gets s pre = .ok (out, s') ∧ TInv cs md (t + pre.length) (post.map Req.id) s'
  | [], post, t, s, _, _, _, h => ⟨[], s, rfl, h⟩
  | r :: pre, post, t, s, hl, hok, ha, h => by
    simp only [List.length_cons] at hl
    obtain ⟨s1, h1, h2, _⟩ := get_step (n := n) hn (t := t) (post := (pre ++ post).map Req.id) (by simp; omega) (hok r (by simp)) ha.1 h
    obtain ⟨out, s', h3, h4⟩ := run_trace hn pre post (t + 1) s1 (by omega) (fun r hr => hok r (by simp [hr])) ha.2 h2
    refine ⟨decide (r.id ∈ s.base.cached.ids) :: out, s', ?_, ?_⟩
    · simp only [Algo.gets, h1, Res.bind_ok, h3]
    · rw [List.length_cons]
      have e : t + (pre.length + 1) = t + 1 + pre.length := by omega
      rw [e]; exact h4

end Verif.BeladySize
