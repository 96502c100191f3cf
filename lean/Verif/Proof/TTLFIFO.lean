import Verif.Spec.TTLFIFO
import Mathlib.Data.List.Nodup
/-!
# Proofs about TTL_FIFO
-/

namespace Verif.TTLFIFO
open Verif Verif.Spec.Expiry

structure Core (t0 : Nat) (q : Nat → List ObjId) (t : ObjId → Option TObj) (l : List TObj) : Prop where
  queue : ∀ i, q i = (l.filter fun o => o.exp - t0 = i).map TObj.id
  table : ∀ id, t id = l.find? fun o => o.id = id
  nodup : (l.map TObj.id).Nodup

theorem uniq {l : List TObj} (h : (l.map TObj.id).Nodup) {o p : TObj} (ho : o ∈ l) (hp : p ∈ l) (e : o.id = p.id) : o = p :=
  List.inj_on_of_nodup_map h ho hp e

theorem find_mem {l : List TObj} (h : (l.map TObj.id).Nodup) {o : TObj} (ho : o ∈ l) : (l.find? fun p => p.id = o.id) = some o := by
  cases hf : l.find? (fun p => p.id = o.id) with
  | none =>
    have := List.find?_eq_none.1 hf o ho
    simp at this
  | some p =>
    have h1 := List.mem_of_find?_eq_some hf
    have h2 : p.id = o.id := by simpa using List.find?_some hf
    rw [uniq h h1 ho h2]

theorem find_without (l : List TObj) (a id : ObjId) : ((l.filter fun p => p.id ≠ a).find? fun p => p.id = id) = if id = a then none else l.find? fun p => p.id = id := by
  induction l with
  | nil => simp
  | cons o l ih =>
    by_cases h1 : o.id = a
    · rw [List.filter_cons_of_neg (by simpa using h1), ih]
      by_cases h2 : id = a
      · rw [if_pos h2, if_pos h2]
      · rw [if_neg h2, if_neg h2, List.find?_cons_of_neg]
        simpa [h1] using fun x => h2 x.symm
    · rw [List.filter_cons_of_pos (by simpa using h1)]
      by_cases h2 : o.id = id
      · rw [List.find?_cons_of_pos (by simpa using h2), if_neg (by rw [← h2]; exact h1), List.find?_cons_of_pos (by simpa using h2)]
      · rw [List.find?_cons_of_neg (by simpa using h2), ih, List.find?_cons_of_neg (by simpa using h2)]

theorem map_without {l : List TObj} (h : (l.map TObj.id).Nodup) (P : TObj → Bool) (a : ObjId) :
    ((l.filter fun p => p.id ≠ a).filter P).map TObj.id = ((l.filter P).map TObj.id).erase a := by
  have hn : ((l.filter P).map TObj.id).Nodup := h.sublist (List.filter_sublist.map _)
  rw [hn.erase_eq_filter, List.filter_map, List.filter_filter, List.filter_filter]
  congr 1
  apply List.filter_congr
  intro o _
  simp only [Function.comp, bne, ne_eq, decide_not]
  rw [Bool.and_comm]
  congr 2

theorem Core.remove {t0 : Nat} {q q' : Nat → List ObjId} {t t' : ObjId → Option TObj} {l : List TObj} (h : Core t0 q t l) {o : TObj} (ho : o ∈ l)
    (hq : ∀ i, q' i = if i = o.exp - t0 then (q i).erase o.id else q i) (ht : ∀ i, t' i = if i = o.id then none else t i) :
    Core t0 q' t' (l.filter fun p => p.id ≠ o.id) := by
  refine ⟨?_, ?_, h.nodup.sublist (List.filter_sublist.map _)⟩
  · intro i
    rw [map_without h.nodup, hq, h.queue]
    split
    · rfl
    · rename_i hi
      symm
      apply List.erase_of_not_mem
      intro hm
      obtain ⟨p, hp, hpid⟩ := List.mem_map.1 hm
      obtain ⟨hp1, hp2⟩ := List.mem_filter.1 hp
      rw [uniq h.nodup hp1 ho hpid] at hp2
      exact hi (by simpa using (of_decide_eq_true hp2).symm)
  · intro id
    rw [ht, find_without, h.table]

theorem Core.append {t0 : Nat} {q q' : Nat → List ObjId} {t t' : ObjId → Option TObj} {l : List TObj} (h : Core t0 q t l) {o : TObj} (ho : ∀ p ∈ l, p.id ≠ o.id)
    (hq : ∀ i, q' i = if i = o.exp - t0 then q i ++ [o.id] else q i) (ht : ∀ i, t' i = if i = o.id then some o else t i) :
    Core t0 q' t' (l ++ [o]) := by
  refine ⟨?_, ?_, ?_⟩
  · intro i
    rw [hq, h.queue, List.filter_append, List.map_append]
    by_cases hi : i = o.exp - t0
    · rw [if_pos hi, List.filter_cons_of_pos (by simpa using hi.symm)]; rfl
    · rw [if_neg hi, List.filter_cons_of_neg (by simpa using fun x => hi x.symm)]; simp
  · intro id
    rw [ht, List.find?_append, h.table]
    by_cases hi : id = o.id
    · have : l.find? (fun p => p.id = id) = none := by
        rw [List.find?_eq_none]
        intro p hp
        simpa [hi] using ho p hp
      rw [this, if_pos hi, List.find?_cons_of_pos (by simpa using hi.symm)]; rfl
    · rw [if_neg hi, List.find?_cons_of_neg (by simpa using fun x => hi x.symm)]; simp
  · rw [List.map_append, List.nodup_append]
    refine ⟨h.nodup, by simp, ?_⟩
    intro a ha b hb
    obtain ⟨p, hp, rfl⟩ := List.mem_map.1 ha
    simp only [List.map_cons, List.map_nil, List.mem_singleton] at hb
    rw [hb]
    exact ho p hp

theorem total_without {l : List TObj} (h : (l.map TObj.id).Nodup) {o : TObj} (ho : o ∈ l) : total (l.filter fun p => p.id ≠ o.id) + o.size = total l := by
  induction l with
  | nil => cases ho
  | cons p l ih =>
    rw [List.map_cons, List.nodup_cons] at h
    by_cases he : p.id = o.id
    · have hpo : o = p := by
        rcases List.mem_cons.1 ho with h1 | h1
        · exact h1
        · exact absurd (List.mem_map_of_mem h1) (he ▸ h.1)
      subst hpo
      have : l.filter (fun p => p.id ≠ o.id) = l := by
        rw [List.filter_eq_self]
        intro x hx
        simpa using fun e : x.id = o.id => h.1 (e ▸ List.mem_map_of_mem hx)
      rw [List.filter_cons_of_neg (by simp), this]
      simp only [total, List.map_cons, List.sum_cons]
      omega
    · have ho' : o ∈ l := by
        rcases List.mem_cons.1 ho with h1 | h1
        · exact absurd (h1 ▸ rfl) he
        · exact h1
      have := ih h.2 ho'
      rw [List.filter_cons_of_pos (by simpa using he)]
      simp only [total, List.map_cons, List.sum_cons] at this ⊢
      omega

theorem advance_ok (q : Nat → List ObjId) : ∀ (fuel pos : Nat), (∃ i, pos ≤ i ∧ i < pos + fuel ∧ q i ≠ []) →
    ∃ p, advance q fuel pos = .ok p ∧ pos ≤ p ∧ q p ≠ [] ∧ ∀ i, pos ≤ i → i < p → q i = []
  | 0, pos, ⟨i, h1, h2, _⟩ => by omega
  | fuel + 1, pos, ⟨i, h1, h2, h3⟩ => by
    unfold advance
    by_cases hq : q pos = []
    · rw [if_pos hq]
      have hne : i ≠ pos := fun e => h3 (e ▸ hq)
      obtain ⟨p, a, b, c, d⟩ := advance_ok q fuel (pos + 1) ⟨i, by omega, by omega, h3⟩
      refine ⟨p, a, by omega, c, fun j hj1 hj2 => ?_⟩
      by_cases hj : j = pos
      · rw [hj]; exact hq
      · exact d j (by omega) hj2
    · rw [if_neg hq]
      exact ⟨pos, rfl, Nat.le_refl _, hq, fun j _ _ => by omega⟩

/-- the state `s` holds the objects `l`; the first request came at `T0`, the last at `now` -/
structure Inv (M T0 now : Nat) (s : State) (l : List TObj) : Prop where
  none : s.start = none → l = []
  some : ∀ t, s.start = some t → T0 ≤ t ∧ t ≤ now
  core : Core (s.start.getD 0) s.queues s.table l
  used : s.used = total l
  range : ∀ o ∈ l, s.start.getD 0 ≤ o.exp ∧ o.exp - s.start.getD 0 < M ∧ s.pos ≤ o.exp - s.start.getD 0

theorem evict_ok {M T0 now : Nat} {s : State} {l : List TObj} (h : Inv M T0 now s l) (hl : l ≠ []) :
    ∃ o s', victim l = .some o ∧ o ∈ l ∧ evict M s = .ok s' ∧ Inv M T0 now s' (l.filter fun p => p.id ≠ o.id) ∧ s'.cnt = s.cnt := by
  generalize ht0 : s.start.getD 0 = t0 at *
  have hcore := h.core
  have hrange := h.range
  rw [ht0] at hcore hrange
  obtain ⟨o1, l1, rfl⟩ := List.exists_cons_of_ne_nil hl
  have hq1 : ∀ o ∈ o1 :: l1, s.queues (o.exp - t0) ≠ [] := by
    intro o ho
    rw [hcore.queue]
    apply List.ne_nil_of_mem (a := o.id)
    exact List.mem_map_of_mem (List.mem_filter.2 ⟨ho, by simp⟩)
  have hr1 := hrange o1 (List.mem_cons_self ..)
  obtain ⟨p, hp1, hp2, hp3, hp4⟩ := advance_ok s.queues (M - s.pos) s.pos ⟨o1.exp - t0, hr1.2.2, by omega, hq1 o1 (List.mem_cons_self ..)⟩
  have hmin : ∀ o ∈ o1 :: l1, p ≤ o.exp - t0 := by
    intro o ho
    rcases Nat.lt_or_ge (o.exp - t0) p with hlt | hge
    · exact absurd (hp4 _ (hrange o ho).2.2 hlt) (hq1 o ho)
    · exact hge
  generalize hL : o1 :: l1 = L at *
  cases hf : L.filter (fun o => o.exp - t0 = p) with
  | nil =>
    exact absurd (by rw [hcore.queue, hf]; rfl) hp3
  | cons o tl =>
    have hmem : o ∈ L.filter (fun o => o.exp - t0 = p) := by rw [hf]; exact List.mem_cons_self ..
    obtain ⟨hoL, hop⟩ := List.mem_filter.1 hmem
    have hop : o.exp - t0 = p := by simpa using hop
    have hv : victim L = .some o := by
      unfold victim
      have e : ∀ x ∈ L, (L.all fun y => decide (x.exp ≤ y.exp)) = decide (x.exp - t0 = p) := by
        intro x hx
        rw [Bool.eq_iff_iff, List.all_eq_true, decide_eq_true_eq]
        have hx1 := hrange x hx
        have hx2 := hmin x hx
        have ho1 := hrange o hoL
        constructor
        · intro ha
          have := ha o hoL
          simp only [decide_eq_true_eq] at this
          omega
        · intro ha y hy
          have := hmin y hy
          have hy1 := hrange y hy
          simp only [decide_eq_true_eq]
          omega
      have e2 : L.find? (fun x => L.all fun y => decide (x.exp ≤ y.exp)) = (L.filter fun x => L.all fun y => decide (x.exp ≤ y.exp)).head? := by
        rw [List.head?_filter]
      rw [e2, List.filter_congr e, hf]
      rfl
    have hqp : s.queues p = o.id :: tl.map TObj.id := by rw [hcore.queue, hf]; rfl
    have htab : s.table o.id = .some o := by rw [hcore.table, find_mem hcore.nodup hoL]
    have htot := total_without hcore.nodup hoL
    have hused := h.used
    refine ⟨o, { s with
      pos := p
      used := s.used - o.size
      queues := fun i => if i = p then tl.map TObj.id else s.queues i
      table := fun i => if i = o.id then .none else s.table i }, hv, hoL, ?_, ?_, ?_⟩
    · unfold evict
      rw [hp1]
      simp only [bind, Except.bind, hqp, htab]
      rw [if_pos (by omega)]
    · refine ⟨fun hn => ?_, h.some, ?_, ?_, ?_⟩
      · have := h.none hn
        rw [this]; rfl
      · show Core (s.start.getD 0) _ _ _
        rw [ht0]
        refine hcore.remove hoL ?_ (fun _ => rfl)
        intro i
        rw [hop]
        by_cases hi : i = p
        · subst hi
          simp only [if_true, hqp, List.erase_cons_head]
        · simp only [if_neg hi]
      · show s.used - o.size = _
        omega
      · intro x hx
        have hxL := (List.mem_filter.1 hx).1
        show s.start.getD 0 ≤ _ ∧ x.exp - s.start.getD 0 < M ∧ p ≤ x.exp - s.start.getD 0
        rw [ht0]
        exact ⟨(hrange x hxL).1, (hrange x hxL).2.1, hmin x hxL⟩
    · rfl

theorem shrink_ok {M T0 now cs : Nat} : ∀ (n : Nat) (s : State) (l : List TObj), Inv M T0 now s l → l.length ≤ n →
    ∃ s', shrink M cs n s = .ok s' ∧ Inv M T0 now s' (fit cs n l) ∧ s'.cnt = s.cnt ∧ total (fit cs n l) ≤ cs ∧ (fit cs n l).length ≤ l.length
  | 0, s, l, h, hn => by
    have hl : l = [] := List.length_eq_zero_iff.1 (by omega)
    have hu := h.used
    subst hl
    refine ⟨s, ?_, h, rfl, Nat.zero_le _, Nat.le_refl _⟩
    unfold shrink
    rw [if_neg]
    rw [hu]
    simp [total]
  | n + 1, s, l, h, hn => by
    unfold shrink fit
    by_cases hc : total l ≤ cs
    · rw [if_pos hc, if_neg (by rw [h.used]; omega)]
      exact ⟨s, rfl, h, rfl, hc, Nat.le_refl _⟩
    · have hl : l ≠ [] := by
        rintro rfl
        simp [total] at hc
      obtain ⟨o, s1, h1, h2, h3, h4, h5⟩ := evict_ok h hl
      rw [if_neg hc, if_pos (by rw [h.used]; omega), h1, h3]
      have hlen : (l.filter fun p => p.id ≠ o.id).length < l.length := by
        rw [List.length_filter_lt_length_iff_exists]
        exact ⟨o, h2, by simp⟩
      obtain ⟨s2, a, b, c, d, e⟩ := shrink_ok n s1 _ h4 (by omega)
      exact ⟨s2, a, b, c.trans h5, d, by show (fit cs n _).length ≤ _; omega⟩


theorem fit_fuel (cs : Nat) : ∀ (n m : Nat) (l : List TObj), l.length ≤ n → l.length ≤ m → fit cs n l = fit cs m l
  | 0, 0, l, _, _ => rfl
  | 0, m + 1, l, hn, _ => by
    have hl : l = [] := List.length_eq_zero_iff.1 (by omega)
    subst hl
    unfold fit
    rw [if_pos (by simp [total])]
  | n + 1, 0, l, _, hm => by
    have hl : l = [] := List.length_eq_zero_iff.1 (by omega)
    subst hl
    unfold fit
    rw [if_pos (by simp [total])]
  | n + 1, m + 1, l, hn, hm => by
    unfold fit
    split
    · rfl
    · cases hv : victim l with
      | none => rfl
      | some o =>
        have ho : o ∈ l := List.mem_of_find?_eq_some hv
        have hlen : (l.filter fun p => p.id ≠ o.id).length < l.length := by
          rw [List.length_filter_lt_length_iff_exists]
          exact ⟨o, ho, by simp⟩
        exact fit_fuel cs n m _ (by omega) (by omega)

theorem filter_single {l : List TObj} (h : (l.map TObj.id).Nodup) {o : TObj} (ho : o ∈ l) : (l.filter fun p => p.id = o.id) = [o] := by
  induction l with
  | nil => cases ho
  | cons p l ih =>
    rw [List.map_cons, List.nodup_cons] at h
    by_cases he : p.id = o.id
    · have hpo : o = p := by
        rcases List.mem_cons.1 ho with h1 | h1
        · exact h1
        · exact absurd (List.mem_map_of_mem h1) (he ▸ h.1)
      subst hpo
      have : l.filter (fun p => p.id = o.id) = [] := by
        rw [List.filter_eq_nil_iff]
        intro x hx
        simpa using fun e : x.id = o.id => h.1 (e ▸ List.mem_map_of_mem hx)
      rw [List.filter_cons_of_pos (by simp), this]
    · have ho' : o ∈ l := by
        rcases List.mem_cons.1 ho with h1 | h1
        · exact absurd (h1 ▸ rfl) he
        · exact h1
      rw [List.filter_cons_of_neg (by simpa using he)]
      exact ih h.2 ho'

theorem shrink_noop {M cs : Nat} {s : State} (h : s.used ≤ cs) (n : Nat) : shrink M cs n s = .ok s := by
  cases n <;> (unfold shrink; rw [if_neg (by omega)])

theorem Inv.later {M T0 now now' : Nat} {s : State} {l : List TObj} (h : Inv M T0 now s l) (hn : now ≤ now') : Inv M T0 now' s l :=
  ⟨h.none, fun t ht => ⟨(h.some t ht).1, Nat.le_trans (h.some t ht).2 hn⟩, h.core, h.used, h.range⟩

theorem Inv.counted {M T0 now c : Nat} {s : State} {l : List TObj} (h : Inv M T0 now s l) : Inv M T0 now { s with cnt := c } l :=
  ⟨h.none, h.some, h.core, h.used, h.range⟩

theorem total_append (l : List TObj) (o : TObj) : total (l ++ [o]) = total l + o.size := by
  simp [total]

theorem insert_ok {M T0 : Nat} {s : State} {l : List TObj} {r : TReq} (h : Inv M T0 r.time s l) (hr : ∀ p ∈ l, p.id ≠ r.id) (h0 : T0 ≤ r.time) (hM : r.time + r.ttl < T0 + M) :
    ∃ s', insert M s r = .ok s' ∧ Inv M T0 r.time s' (l ++ [⟨r.id, r.size, r.time + r.ttl⟩]) ∧ s'.cnt = s.cnt := by
  have hst : ∀ t, s.start.getD r.time = t → T0 ≤ t ∧ t ≤ r.time := by
    rintro t rfl
    cases hs : s.start with
    | none => exact ⟨h0, Nat.le_refl _⟩
    | some t => exact h.some t hs
  have hcore : Core (s.start.getD r.time) s.queues s.table l ∧ ∀ o ∈ l, s.start.getD r.time ≤ o.exp ∧ o.exp - s.start.getD r.time < M ∧ s.pos ≤ o.exp - s.start.getD r.time := by
    cases hs : s.start with
    | none =>
      have hl := h.none hs
      subst hl
      have hc := h.core
      exact ⟨⟨fun i => hc.queue i, hc.table, hc.nodup⟩, fun o ho => by cases ho⟩
    | some t =>
      have hc := h.core
      have hr := h.range
      rw [hs] at hc hr
      exact ⟨hc, hr⟩
  obtain ⟨hcore, hrange⟩ := hcore
  generalize ht : s.start.getD r.time = t at *
  obtain ⟨hs1, hs2⟩ := hst t rfl
  have hidx : getIdx M (r.time + r.ttl - t) = r.time + r.ttl - t := by unfold getIdx; rw [if_neg (by omega)]
  unfold insert
  simp only [ht, hidx]
  rw [if_pos (by omega)]
  refine ⟨_, rfl, ⟨?_, ?_, ?_, ?_, ?_⟩, rfl⟩
  · intro hx; cases hx
  · intro u hu; cases hu; exact ⟨hs1, hs2⟩
  · exact hcore.append hr (fun _ => rfl) (fun _ => rfl)
  · show s.used + r.size = _
    rw [total_append, h.used]
  · intro o ho
    show t ≤ o.exp ∧ o.exp - t < M ∧ (if _ then _ else _) ≤ o.exp - t
    rcases List.mem_append.1 ho with h1 | h1
    · have := hrange o h1
      exact ⟨this.1, this.2.1, by split <;> omega⟩
    · have : o = ⟨r.id, r.size, r.time + r.ttl⟩ := by simpa using h1
      subst this
      show t ≤ r.time + r.ttl ∧ r.time + r.ttl - t < M ∧ _ ≤ r.time + r.ttl - t
      exact ⟨by omega, by omega, by split <;> omega⟩

theorem get_ok {M T0 now cs : Nat} {s : State} {l : List TObj} {r : TReq} (h : Inv M T0 now s l) (hc : l.length ≤ s.cnt) (hcs : total l ≤ cs) (hn : now ≤ r.time) (h0 : T0 ≤ r.time) (hM : r.time + r.ttl < T0 + M) :
    ∃ s', get M cs s r = .ok (decide (Fresh l r), s') ∧ Inv M T0 r.time s' (serve cs l r) ∧ (serve cs l r).length ≤ s'.cnt ∧ total (serve cs l r) ≤ cs := by
  have h := h.later hn
  have hused : s.used ≤ cs := by rw [h.used]; exact hcs
  cases hf : l.find? (fun o => o.id = r.id) with
  | none =>
    have hno : ∀ p ∈ l, p.id ≠ r.id := fun p hp => by simpa using List.find?_eq_none.1 hf p hp
    have hnf : ¬ Fresh l r := fun ⟨o, ho, e, _⟩ => hno o ho e
    have hnh : ¬ Holds l r.id := fun ⟨o, ho, e⟩ => hno o ho e
    have hck : check M s r = .ok (none, s) := by unfold check; rw [h.core.table, hf]
    unfold get serve
    rw [hck, if_neg hnf, if_neg hnh, decide_eq_false hnf]
    by_cases hsz : r.size ≤ cs
    · obtain ⟨s1, a1, a2, a3⟩ := insert_ok h hno h0 hM
      obtain ⟨s2, b1, b2, b3, b4, b5⟩ := shrink_ok (cs := cs) (s1.cnt + 1) s1 _ a2 (by rw [a3, List.length_append, List.length_singleton]; omega)
      rw [fit_fuel cs (s1.cnt + 1) (l.length + 1) _ (by rw [a3, List.length_append, List.length_singleton]; omega) (Nat.le_of_eq (by rw [List.length_append, List.length_singleton]))] at b2 b4 b5
      rw [if_pos hsz]
      refine ⟨{ s2 with cnt := s2.cnt + 1 }, ?_, b2.counted, ?_, b4⟩
      · show ((if r.size ≤ cs then (if (none : Option Bool) = none then insert M s r else .ok s) >>= fun s1 => shrink M cs (s1.cnt + 1) s1 else .ok s) >>= _) = _
        rw [if_pos hsz, if_pos rfl, a1]
        show (shrink M cs (s1.cnt + 1) s1 >>= _) = _
        rw [b1]
        rfl
      · show _ ≤ s2.cnt + 1
        rw [List.length_append, List.length_singleton] at b5
        omega
    · rw [if_neg hsz]
      refine ⟨{ s with cnt := s.cnt + 1 }, ?_, h.counted, ?_, hcs⟩
      · simp only [bind, Except.bind, hsz, if_false]
        rfl
      · show _ ≤ s.cnt + 1
        omega
  | some o =>
    have hol : o ∈ l := List.mem_of_find?_eq_some hf
    have hid : o.id = r.id := by simpa using List.find?_some hf
    have hh : Holds l r.id := ⟨o, hol, hid⟩
    have hfresh : Fresh l r ↔ r.time ≤ o.exp := by
      constructor
      · rintro ⟨p, hp, e, hle⟩
        rw [uniq h.core.nodup hol hp (hid.trans e.symm)]
        exact hle
      · exact fun hle => ⟨o, hol, hid, hle⟩
    have htab : s.table r.id = some o := by rw [h.core.table, hf]
    by_cases he : o.exp < r.time
    · have hnf : ¬ Fresh l r := fun hx => by have := hfresh.1 hx; omega
      obtain ⟨t, ht⟩ : ∃ t, s.start = some t := by
        cases hs : s.start with
        | none => rw [h.none hs] at hol; cases hol
        | some t => exact ⟨t, rfl⟩
      have htt := h.some t ht
      have hcore := h.core
      have hrange := h.range
      rw [ht] at hcore hrange
      simp only [Option.getD_some] at hcore hrange
      have hro := hrange o hol
      have hi1 : getIdx M (o.exp - t) = o.exp - t := by unfold getIdx; rw [if_neg (by omega)]
      have hi2 : getIdx M (r.time + r.ttl - t) = r.time + r.ttl - t := by unfold getIdx; rw [if_neg (by omega)]
      have hmem : r.id ∈ s.queues (o.exp - t) := by
        rw [hcore.queue, ← hid]
        exact List.mem_map_of_mem (List.mem_filter.2 ⟨hol, by simp⟩)
      have hck : check M s r = .ok (some false, { s with
          queues := fun i => if i = r.time + r.ttl - t then (if i = o.exp - t then (s.queues i).erase r.id else s.queues i) ++ [r.id] else (if i = o.exp - t then (s.queues i).erase r.id else s.queues i)
          table := fun i => if i = r.id then some { o with exp := r.time + r.ttl } else s.table i }) := by
        unfold check
        rw [htab]
        simp only [ht, Option.getD_some, hi1, hi2]
        rw [if_pos he, if_pos ⟨by omega, by omega⟩, if_pos hmem]
      have hserve : serve cs l r = (l.filter fun p => p.id ≠ r.id) ++ [{ o with exp := r.time + r.ttl }] := by
        unfold serve
        rw [if_neg hnf, if_pos hh, ← hid, filter_single h.core.nodup hol]
        rfl
      have hinv : Inv M T0 r.time { s with
          queues := fun i => if i = r.time + r.ttl - t then (if i = o.exp - t then (s.queues i).erase r.id else s.queues i) ++ [r.id] else (if i = o.exp - t then (s.queues i).erase r.id else s.queues i)
          table := fun i => if i = r.id then some { o with exp := r.time + r.ttl } else s.table i } ((l.filter fun p => p.id ≠ r.id) ++ [{ o with exp := r.time + r.ttl }]) := by
        refine ⟨fun hx => ?_, h.some, ?_, ?_, ?_⟩
        · have hx : s.start = none := hx
          rw [ht] at hx; cases hx
        · show Core (s.start.getD 0) _ _ _
          rw [ht]
          show Core t _ _ _
          have hrem := hcore.remove (q' := fun i => if i = o.exp - t then (s.queues i).erase r.id else s.queues i) (t' := fun i => if i = r.id then none else s.table i) hol
            (by intro i; rw [hid]) (by intro i; rw [hid])
          rw [hid] at hrem
          refine hrem.append (o := { o with exp := r.time + r.ttl }) ?_ ?_ ?_
          · intro p hp
            show p.id ≠ o.id
            rw [hid]
            simpa using (List.mem_filter.1 hp).2
          · intro i
            show _ = if i = r.time + r.ttl - t then _ ++ [o.id] else _
            rw [hid]
          · intro i
            show (if i = r.id then some { o with exp := r.time + r.ttl } else s.table i) = if i = o.id then some { o with exp := r.time + r.ttl } else if i = r.id then none else s.table i
            rw [hid]
            by_cases hi : i = r.id
            · rw [if_pos hi, if_pos hi]
            · rw [if_neg hi, if_neg hi, if_neg hi]
        · show s.used = _
          rw [total_append, h.used, ← hid]
          exact (total_without h.core.nodup hol).symm
        · intro x hx
          show s.start.getD 0 ≤ _ ∧ _ - s.start.getD 0 < M ∧ s.pos ≤ _ - s.start.getD 0
          rw [ht]
          show t ≤ x.exp ∧ x.exp - t < M ∧ s.pos ≤ x.exp - t
          rcases List.mem_append.1 hx with h1 | h1
          · exact hrange x (List.mem_filter.1 h1).1
          · have : x = { o with exp := r.time + r.ttl } := by simpa using h1
            subst this
            show t ≤ r.time + r.ttl ∧ r.time + r.ttl - t < M ∧ s.pos ≤ r.time + r.ttl - t
            omega
      refine ⟨{ s with
          queues := fun i => if i = r.time + r.ttl - t then (if i = o.exp - t then (s.queues i).erase r.id else s.queues i) ++ [r.id] else (if i = o.exp - t then (s.queues i).erase r.id else s.queues i)
          table := fun i => if i = r.id then some { o with exp := r.time + r.ttl } else s.table i
          cnt := s.cnt + 1 }, ?_, ?_, ?_, ?_⟩
      · unfold get
        rw [hck, decide_eq_false hnf]
        simp only [bind, Except.bind, reduceCtorEq, if_false]
        by_cases hsz : r.size ≤ cs
        · rw [if_pos hsz, shrink_noop (by exact hused)]
          rfl
        · rw [if_neg hsz]
          rfl
      · rw [hserve]
        exact hinv.counted
      · rw [hserve, List.length_append, List.length_singleton]
        show _ ≤ s.cnt + 1
        have := List.length_filter_le (fun p : TObj => decide (p.id ≠ r.id)) l
        omega
      · rw [hserve, total_append, ← hid]
        have := total_without h.core.nodup hol
        show _ + o.size ≤ cs
        omega
    · have hfr : Fresh l r := hfresh.2 (by omega)
      have hck : check M s r = .ok (some true, s) := by
        unfold check
        rw [htab]
        simp only
        rw [if_neg he]
      have hserve : serve cs l r = l := by unfold serve; rw [if_pos hfr]
      rw [hserve, decide_eq_true hfr]
      refine ⟨{ s with cnt := s.cnt + 1 }, ?_, h.counted, by show _ ≤ s.cnt + 1; omega, hcs⟩
      unfold get
      rw [hck]
      simp only [bind, Except.bind, reduceCtorEq, if_false]
      by_cases hsz : r.size ≤ cs
      · rw [if_pos hsz, shrink_noop hused]
        rfl
      · rw [if_neg hsz]
        rfl

theorem run_ok {M T0 cs : Nat} : ∀ (rs : List TReq) (now : Nat) (s : State) (l : List TObj), Inv M T0 now s l → l.length ≤ s.cnt → total l ≤ cs →
    (∀ r ∈ rs, now ≤ r.time ∧ T0 ≤ r.time ∧ r.time + r.ttl < T0 + M) → rs.Pairwise (fun a b => a.time ≤ b.time) →
    ∃ s' now', run M cs s rs = .ok ((serveAll cs l rs).1, s') ∧ Inv M T0 now' s' (serveAll cs l rs).2 ∧ total (serveAll cs l rs).2 ≤ cs
  | [], now, s, l, h, _, hcs, _, _ => ⟨s, now, rfl, h, hcs⟩
  | r :: rs, now, s, l, h, hc, hcs, hr, hp => by
    obtain ⟨a1, a2, a3⟩ := hr r (List.mem_cons_self ..)
    obtain ⟨s1, b1, b2, b3, b4⟩ := get_ok h hc hcs a1 a2 a3
    rw [List.pairwise_cons] at hp
    obtain ⟨s2, now', c1, c2, c3⟩ := run_ok rs r.time s1 _ b2 b3 b4 (fun q hq => ⟨hp.1 q hq, (hr q (List.mem_cons_of_mem _ hq)).2⟩) hp.2
    refine ⟨s2, now', ?_, c2, c3⟩
    unfold run
    rw [b1]
    show (run M cs s1 rs >>= _) = _
    rw [c1]
    rfl

theorem init_inv (M T0 : Nat) : Inv M T0 0 {} [] :=
  ⟨fun _ => rfl, (fun t h => by cases h), ⟨fun _ => rfl, fun _ => rfl, List.nodup_nil⟩, rfl, (fun o ho => by cases ho)⟩

theorem remove_ok {M T0 now : Nat} {s : State} {l : List TObj} (h : Inv M T0 now s l) {o : TObj} (ho : o ∈ l) :
    ∃ s', remove M s o.id = .ok s' ∧ Inv M T0 now s' (l.filter fun p => p.id ≠ o.id) := by
  have htot := total_without h.core.nodup ho
  have hr := h.range o ho
  have hmem : o.id ∈ s.queues (o.exp - s.start.getD 0) := by
    rw [h.core.queue]
    exact List.mem_map_of_mem (List.mem_filter.2 ⟨ho, by simp⟩)
  unfold remove
  rw [h.core.table, find_mem h.core.nodup ho]
  simp only
  rw [if_pos (by rw [h.used]; omega), if_pos hr.2.1, if_pos hmem]
  refine ⟨_, rfl, ⟨fun hn => ?_, h.some, h.core.remove ho (fun _ => rfl) (fun _ => rfl), ?_, fun x hx => h.range x (List.mem_filter.1 hx).1⟩⟩
  · rw [h.none hn]; rfl
  · show s.used - o.size = _
    rw [h.used]
    omega

end Verif.TTLFIFO
