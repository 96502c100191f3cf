import Verif.Spec.LRUv0
/-!
# Proofs about LRUv0
-/

namespace Verif.LRUv0
open Verif Verif.Spec.Recency

/-- the state of a cache that has not evicted: nodes and objects from the head of the queue on -/
structure Rep (md : Nat) (s : State) (l : List (Nat × VObj)) : Prop where
  list : s.list = l.map Prod.fst
  data : ∀ p ∈ l, s.data p.1 = some p.2
  table : ∀ p ∈ l, s.table p.2.id = some p.1
  back : ∀ id a, s.table id = some a → ∃ p ∈ l, p.1 = a ∧ p.2.id = id
  lt : ∀ p ∈ l, p.1 < s.fresh
  nodup : (l.map Prod.fst).Nodup
  occ : s.occ = (bytes md (l.map Prod.snd) : Nat)

theorem Rep.same {md : Nat} {s : State} {l : List (Nat × VObj)} (h : Rep md s l) {p q : Nat × VObj} (hp : p ∈ l) (hq : q ∈ l) : p.1 = q.1 ↔ p.2.id = q.2.id := by
  constructor
  · intro e
    have h1 := h.data p hp
    rw [e, h.data q hq] at h1
    exact (congrArg VObj.id (Option.some.inj h1)).symm
  · intro e
    have h1 := h.table p hp
    rw [e, h.table q hq] at h1
    exact (Option.some.inj h1).symm

theorem Rep.none {md : Nat} {s : State} {l : List (Nat × VObj)} (h : Rep md s l) {id : ObjId} (hn : s.table id = none) : ∀ p ∈ l, p.2.id ≠ id := by
  intro p hp e
  have := h.table p hp
  rw [e, hn] at this
  cases this

theorem bytes_append (md : Nat) (l m : List VObj) : bytes md (l ++ m) = bytes md l + bytes md m := by
  unfold bytes; rw [List.map_append, List.sum_append]

theorem bytes_without (md : Nat) : ∀ (l : List (Nat × VObj)) (p : Nat × VObj), (l.map Prod.fst).Nodup → p ∈ l → (∀ q ∈ l, p.1 = q.1 ↔ p.2.id = q.2.id) →
    bytes md ((l.filter fun q => q.2.id ≠ p.2.id).map Prod.snd) + (p.2.size + md) = bytes md (l.map Prod.snd)
  | [], p, _, hp, _ => by cases hp
  | x :: l, p, hn, hp, hs => by
    rw [List.map_cons, List.nodup_cons] at hn
    have hx := hs x (List.mem_cons_self ..)
    rcases List.mem_cons.1 hp with rfl | hp'
    · rw [List.filter_cons_of_neg (by simp), List.filter_eq_self.2]
      · unfold bytes; simp only [List.map_cons, List.sum_cons]; omega
      · intro q hq
        simp only [ne_eq, decide_eq_true_eq]
        intro e
        exact hn.1 (by rw [(hs q (List.mem_cons_of_mem _ hq)).2 e.symm]; exact List.mem_map_of_mem hq)
    · have hne : x.2.id ≠ p.2.id := fun e => hn.1 (by rw [← hx.2 e.symm]; exact List.mem_map_of_mem hp')
      rw [List.filter_cons_of_pos (by simpa using hne)]
      have := bytes_without md l p hn.2 hp' (fun q hq => hs q (List.mem_cons_of_mem _ hq))
      unfold bytes at this ⊢
      simp only [List.map_cons, List.sum_cons]
      omega

theorem find_hit {mem : Nat → Bool} {md : Nat} {s : State} {l : List (Nat × VObj)} (h : Rep md s l) {r : Req} (hm : mem r.id = true) {a : Nat} (ht : s.table r.id = some a) :
    ∃ s' l', find mem s r true = .ok (true, s') ∧ Rep md s' l' ∧ l'.map Prod.snd = touch (l.map Prod.snd) r := by
  obtain ⟨p, hp, rfl, hid⟩ := h.back _ _ ht
  have hfil : (l.filter fun q => q.2.id ≠ r.id) = l.filter fun q => q.1 ≠ p.1 := by
    apply List.filter_congr
    intro q hq
    rw [← hid]
    have := h.same hq hp
    simp only [ne_eq, this]
  have hlist : s.list.erase p.1 = (l.filter fun q => q.2.id ≠ r.id).map Prod.fst := by
    rw [h.list, h.nodup.erase_eq_filter, hfil, List.filter_map]
    congr 1
    apply List.filter_congr
    intro q _
    simp [bne]
    rw [Bool.eq_iff_iff]
    simp
  have hmem : p.1 ∈ s.list := by rw [h.list]; exact List.mem_map_of_mem hp
  refine ⟨_, (l.filter fun q => q.2.id ≠ r.id) ++ [(p.1, ⟨r.id, r.size⟩)], by
    unfold find hash
    rw [if_pos hm]
    show (match s.table r.id with | none => _ | some a => _) = _
    rw [ht]
    simp only [if_true, h.data p hp]
    rw [if_pos hmem], ?_, ?_⟩
  · have hoff : ∀ q ∈ l.filter (fun q => q.2.id ≠ r.id), q ∈ l ∧ q.2.id ≠ r.id ∧ q.1 ≠ p.1 := by
      intro q hq
      have h1 := List.mem_filter.1 hq
      have h2 : q.2.id ≠ r.id := by simpa using h1.2
      exact ⟨h1.1, h2, fun e => h2 (((h.same h1.1 hp).1 e).trans hid)⟩
    refine ⟨?_, ?_, ?_, ?_, ?_, ?_, ?_⟩
    · show s.list.erase p.1 ++ [p.1] = _
      rw [hlist]; simp
    · intro q hq
      rcases List.mem_append.1 hq with hq | hq
      · show (if q.1 = p.1 then _ else _) = _
        rw [if_neg (hoff q hq).2.2]; exact h.data q (hoff q hq).1
      · rw [List.mem_singleton] at hq
        subst hq
        show (if p.1 = p.1 then some { p.2 with size := r.size } else _) = _
        rw [if_pos rfl, ← hid]
    · intro q hq
      rcases List.mem_append.1 hq with hq | hq
      · exact h.table q (hoff q hq).1
      · rw [List.mem_singleton] at hq
        subst hq
        exact ht
    · intro id a hta
      by_cases e : id = r.id
      · subst e
        have : p.1 = a := Option.some.inj (ht.symm.trans hta)
        exact ⟨(p.1, ⟨r.id, r.size⟩), by simp, this, rfl⟩
      · obtain ⟨q, hq, e1, e2⟩ := h.back id a hta
        exact ⟨q, List.mem_append_left _ (List.mem_filter.2 ⟨hq, by simpa [e2] using e⟩), e1, e2⟩
    · intro q hq
      rcases List.mem_append.1 hq with hq | hq
      · exact h.lt q (hoff q hq).1
      · rw [List.mem_singleton] at hq
        subst hq
        exact h.lt p hp
    · rw [List.map_append, List.nodup_append]
      refine ⟨h.nodup.sublist (List.filter_sublist.map _), by simp, ?_⟩
      intro x hx y hy
      obtain ⟨q, hq, rfl⟩ := List.mem_map.1 hx
      simp only [List.map_cons, List.map_nil, List.mem_singleton] at hy
      subst hy
      exact (hoff q hq).2.2
    · show s.occ - (p.2.size : Int) + (r.size : Int) = _
      have hw := bytes_without md l p h.nodup hp (fun q hq => h.same hp hq)
      rw [hid] at hw
      rw [h.occ, List.map_append, bytes_append, ← hw]
      unfold bytes
      simp only [List.map_cons, List.map_nil, List.sum_cons, List.sum_nil]
      omega
  · unfold touch
    rw [List.map_append, List.filter_map]
    rfl

theorem insert_ok {mem : Nat → Bool} {md : Nat} {s : State} {l : List (Nat × VObj)} (h : Rep md s l) {r : Req} (hm : mem r.id = true) (ht : s.table r.id = none) :
    ∃ s' l', insert mem md s r = .ok s' ∧ Rep md s' l' ∧ l'.map Prod.snd = touch (l.map Prod.snd) r := by
  have hne := h.none ht
  refine ⟨_, l ++ [(s.fresh, ⟨r.id, r.size⟩)], by unfold insert hash; rw [if_pos hm]; rfl, ⟨?_, ?_, ?_, ?_, ?_, ?_, ?_⟩, ?_⟩
  · show s.list ++ [s.fresh] = _
    rw [h.list]; simp
  · intro q hq
    rcases List.mem_append.1 hq with hq | hq
    · show (if q.1 = s.fresh then _ else _) = _
      rw [if_neg (by have := h.lt q hq; omega)]; exact h.data q hq
    · rw [List.mem_singleton] at hq
      subst hq
      exact if_pos rfl
  · intro q hq
    rcases List.mem_append.1 hq with hq | hq
    · show (if q.2.id = r.id then _ else _) = _
      rw [if_neg (hne q hq)]; exact h.table q hq
    · rw [List.mem_singleton] at hq
      subst hq
      exact if_pos rfl
  · intro id a hta
    by_cases e : id = r.id
    · subst e
      have h1 : (if r.id = r.id then some s.fresh else s.table r.id) = some a := hta
      rw [if_pos rfl] at h1
      exact ⟨(s.fresh, ⟨r.id, r.size⟩), by simp, Option.some.inj h1, rfl⟩
    · have h1 : (if id = r.id then some s.fresh else s.table id) = some a := hta
      rw [if_neg e] at h1
      obtain ⟨q, hq, e1, e2⟩ := h.back id a h1
      exact ⟨q, List.mem_append_left _ hq, e1, e2⟩
  · intro q hq
    show q.1 < s.fresh + 1
    rcases List.mem_append.1 hq with hq | hq
    · have := h.lt q hq; omega
    · rw [List.mem_singleton] at hq
      subst hq
      exact Nat.lt_succ_self _
  · rw [List.map_append, List.nodup_append]
    refine ⟨h.nodup, by simp, ?_⟩
    intro x hx y hy
    obtain ⟨q, hq, rfl⟩ := List.mem_map.1 hx
    simp only [List.map_cons, List.map_nil, List.mem_singleton] at hy
    subst hy
    have := h.lt q hq
    omega
  · show s.occ + ((r.size + md : Nat) : Int) = _
    rw [h.occ, List.map_append, bytes_append]
    unfold bytes
    simp only [List.map_cons, List.map_nil, List.sum_cons, List.sum_nil]
    omega
  · unfold touch
    rw [List.map_append, List.filter_eq_self.2]
    · rfl
    · intro o ho
      obtain ⟨q, hq, rfl⟩ := List.mem_map.1 ho
      simpa using hne q hq

/-- before the loop that evicts -/
theorem admitted {mem : Nat → Bool} {md cs : Nat} {s : State} {l : List (Nat × VObj)} (h : Rep md s l) {r : Req} (hm : mem r.id = true) (hr : r.size ≤ cs) :
    ∃ s1 l1, Rep md s1 l1 ∧ l1.map Prod.snd = touch (l.map Prod.snd) r ∧
      get mem md cs s r = (shrink mem md cs (s1.list.length + 1) s1 >>= fun s2 => .ok (decide (∃ o ∈ l.map Prod.snd, o.id = r.id), s2)) := by
  cases ht : s.table r.id with
  | none =>
    obtain ⟨s1, l1, e, h1, h2⟩ := insert_ok (mem := mem) h hm ht
    refine ⟨s1, l1, h1, h2, ?_⟩
    have hf : find mem s r true = .ok (false, s) := by
      unfold find hash
      rw [if_pos hm]
      show (match s.table r.id with | none => _ | some a => _) = _
      rw [ht]
    have hd : decide (∃ o ∈ l.map Prod.snd, o.id = r.id) = false := by
      rw [decide_eq_false_iff_not]
      rintro ⟨o, ho, e⟩
      obtain ⟨q, hq, rfl⟩ := List.mem_map.1 ho
      exact h.none ht q hq e
    unfold get
    rw [hf, hd]
    show (if r.size ≤ cs then (if false = true then _ else insert mem md s r) >>= _ else _) = _
    rw [if_pos hr, if_neg (by simp), e]
    rfl
  | some a =>
    obtain ⟨s1, l1, e, h1, h2⟩ := find_hit (mem := mem) h hm ht
    refine ⟨s1, l1, h1, h2, ?_⟩
    have hd : decide (∃ o ∈ l.map Prod.snd, o.id = r.id) = true := by
      rw [decide_eq_true_eq]
      obtain ⟨p, hp, _, e⟩ := h.back _ _ ht
      exact ⟨p.2, List.mem_map_of_mem hp, e⟩
    unfold get
    rw [e, hd]
    show (if r.size ≤ cs then (if true = true then _ else _) >>= _ else _) = _
    rw [if_pos hr, if_pos rfl]
    rfl

theorem size_le (md : Nat) (l : List VObj) (r : Req) : r.size ≤ bytes md (touch l r) := by
  unfold touch
  rw [bytes_append]
  unfold bytes
  simp only [List.map_cons, List.map_nil, List.sum_cons, List.sum_nil]
  omega

theorem run_ok {mem : Nat → Bool} {md cs : Nat} : ∀ (rs : List Req) (s : State) (l : List (Nat × VObj)) (before : List ObjId), Rep md s l → (∀ id, id ∈ before ↔ ∃ o ∈ l.map Prod.snd, o.id = id) →
    (∀ r ∈ rs, mem r.id = true) → (∀ k, bytes md ((rs.take k).foldl touch (l.map Prod.snd)) ≤ cs) →
    ∃ s' l', run mem md cs s rs = .ok (seen rs before, s') ∧ Rep md s' l' ∧ l'.map Prod.snd = rs.foldl touch (l.map Prod.snd)
  | [], s, l, before, h, _, _, _ => ⟨s, l, rfl, h, rfl⟩
  | r :: rs, s, l, before, h, hb, hm, hk => by
    have hk1 : bytes md (touch (l.map Prod.snd) r) ≤ cs := by simpa using hk 1
    obtain ⟨s1, l1, h1, h2, h3⟩ := admitted (mem := mem) (cs := cs) h (hm r (List.mem_cons_self ..)) (Nat.le_trans (size_le md _ r) hk1)
    have hs : shrink mem md cs (s1.list.length + 1) s1 = .ok s1 := by
      unfold shrink
      rw [if_neg]
      rw [h1.occ, h2]
      omega
    rw [hs] at h3
    obtain ⟨s', l', e, h4, h5⟩ := run_ok rs s1 l1 (r.id :: before) h1 (by
      intro id
      rw [h2, List.mem_cons, hb]
      unfold touch
      constructor
      · rintro (rfl | ⟨o, ho, e⟩)
        · exact ⟨⟨r.id, r.size⟩, by simp, rfl⟩
        · by_cases e' : o.id = r.id
          · exact ⟨⟨r.id, r.size⟩, by simp, e' ▸ e⟩
          · exact ⟨o, List.mem_append_left _ (List.mem_filter.2 ⟨ho, by simpa using e'⟩), e⟩
      · rintro ⟨o, ho, e⟩
        rcases List.mem_append.1 ho with ho | ho
        · exact .inr ⟨o, (List.mem_filter.1 ho).1, e⟩
        · rw [List.mem_singleton] at ho
          subst ho
          exact .inl e.symm) (fun x hx => hm x (List.mem_cons_of_mem _ hx)) (fun k => by
            rw [h2]
            have := hk (k + 1)
            simpa using this)
    refine ⟨s', l', ?_, h4, by rw [h5, h2]; rfl⟩
    have hd : decide (∃ o ∈ l.map Prod.snd, o.id = r.id) = decide (r.id ∈ before) := by
      rw [Bool.eq_iff_iff, decide_eq_true_eq, decide_eq_true_eq, hb]
    rw [hd] at h3
    unfold run
    rw [h3]
    show (run mem md cs s1 rs >>= fun q => Except.ok (_ :: q.1, q.2)) = _
    rw [e]
    rfl

theorem order_mem {mem : Nat → Bool} : ∀ (rs : List Req) (l : List VObj), (∀ r ∈ rs, mem r.id = true) → (∀ o ∈ l, mem o.id = true) → ∀ o ∈ rs.foldl touch l, mem o.id = true
  | [], _, _, hl => hl
  | r :: rs, l, hm, hl => order_mem rs (touch l r) (fun x hx => hm x (List.mem_cons_of_mem _ hx)) (by
      intro o ho
      unfold touch at ho
      rcases List.mem_append.1 ho with ho | ho
      · exact hl o (List.mem_filter.1 ho).1
      · rw [List.mem_singleton] at ho
        subst ho
        exact hm r (List.mem_cons_self ..))

/-- the first eviction: the object at the head is gone from the table, and its bytes are given back -/
theorem evict_first {mem : Nat → Bool} {md : Nat} {s : State} {p : Nat × VObj} {l : List (Nat × VObj)} (h : Rep md s (p :: l)) (hm : mem p.2.id = true) :
    ∃ s', evict mem md s = .ok s' ∧ s'.occ = (bytes md (l.map Prod.snd) : Nat) ∧ ∀ id, s'.table id ≠ none ↔ ∃ o ∈ l.map Prod.snd, o.id = id := by
  have hocc : s.occ = ((p.2.size + md + bytes md (l.map Prod.snd) : Nat) : Int) := by
    rw [h.occ]; rfl
  have hnd := h.nodup
  rw [List.map_cons, List.nodup_cons] at hnd
  refine ⟨_, by
    unfold evict
    rw [h.list]
    simp only [List.map_cons, h.data p (List.mem_cons_self ..)]
    rw [if_pos (by rw [hocc]; omega)]
    unfold hash
    rw [if_pos hm]
    rfl, ?_, ?_⟩
  · show s.occ - ((p.2.size + md : Nat) : Int) = _
    rw [hocc]; omega
  · intro id
    show (if id = p.2.id then none else s.table id) ≠ none ↔ _
    constructor
    · intro hne
      by_cases c : id = p.2.id
      · rw [if_pos c] at hne; exact absurd rfl hne
      · rw [if_neg c] at hne
        cases ht : s.table id with
        | none => exact absurd ht hne
        | some a =>
          obtain ⟨q, hq, _, e⟩ := h.back id a ht
          rcases List.mem_cons.1 hq with rfl | hq
          · exact absurd e.symm c
          · exact ⟨q.2, List.mem_map_of_mem hq, e⟩
    · rintro ⟨o, ho, e⟩
      obtain ⟨q, hq, rfl⟩ := List.mem_map.1 ho
      have hq' := List.mem_cons_of_mem p hq
      have c : id ≠ p.2.id := by
        intro c
        have := (h.same hq' (List.mem_cons_self ..)).2 (e.trans c)
        exact hnd.1 (this ▸ List.mem_map_of_mem hq)
      rw [if_neg c, ← e, h.table q hq']
      simp

/-! ## After an eviction -/

/-- the node at the head of the queue has lost its object -/
def Dead (s : State) : Prop := ∃ a rest, s.list = a :: rest ∧ s.data a = none ∧ a < s.fresh ∧ ∀ id, s.table id ≠ some a

/-- the table leads to objects -/
def Live (s : State) : Prop := (∀ id a, s.table id = some a → a < s.fresh ∧ ∃ o, s.data a = some o ∧ o.id = id) ∧ ∀ a ∈ s.list, a < s.fresh

theorem dead_evict {mem : Nat → Bool} {md : Nat} {s : State} (h : Dead s) : evict mem md s = .error .useAfterFree := by
  obtain ⟨a, rest, h1, h2, _, _⟩ := h
  unfold evict
  rw [h1]
  simp only [h2]

theorem live_evict {mem : Nat → Bool} {md : Nat} {s s' : State} (h : Live s) (e : evict mem md s = .ok s') : Dead s' := by
  unfold evict at e
  split at e
  · cases e
  · rename_i a rest hl
    split at e
    · cases e
    · rename_i o ho
      split at e
      · unfold hash at e
        split at e
        · cases e
          refine ⟨a, rest, hl, if_pos rfl, h.2 a (by rw [hl]; simp), fun id hid => ?_⟩
          have h1 : (if id = o.id then none else s.table id) = some a := hid
          by_cases c : id = o.id
          · rw [if_pos c] at h1; cases h1
          · rw [if_neg c] at h1
            obtain ⟨_, o', e1, e2⟩ := h.1 id a h1
            rw [ho] at e1
            cases e1
            exact c e2.symm
        · cases e
      · cases e

/-- one or the other -/
def Either (s : State) : Prop := Dead s ∨ Live s

theorem find_keep {mem : Nat → Bool} {s s' : State} {r : Req} {b : Bool} (e : find mem s r true = .ok (b, s')) : (Dead s → Dead s') ∧ (Live s → Live s') := by
  unfold find hash at e
  split at e
  · change (match s.table r.id with | none => _ | some a => _) = _ at e
    split at e
    · cases e; exact ⟨id, id⟩
    · rename_i a ht
      rw [if_pos rfl] at e
      split at e
      · cases e
      · rename_i o ho
        split at e
        · rename_i hmem
          cases e
          refine ⟨fun ⟨x, rest, h1, h2, h3, h4⟩ => ?_, fun ⟨h1, h2⟩ => ?_⟩
          · have hxa : x ≠ a := fun c => h4 r.id (c ▸ ht)
            refine ⟨x, rest.erase a ++ [a], ?_, ?_, h3, h4⟩
            · show s.list.erase a ++ [a] = _
              rw [h1, List.erase_cons_tail (by simpa using hxa)]
              rfl
            · show (if x = a then _ else _) = _
              rw [if_neg hxa]; exact h2
          · refine ⟨fun id y hy => ?_, fun y hy => ?_⟩
            · obtain ⟨g1, o', g2, g3⟩ := h1 id y hy
              refine ⟨g1, ?_⟩
              show ∃ o1, (if y = a then some { o with size := r.size } else s.data y) = some o1 ∧ _
              by_cases c : y = a
              · subst c
                rw [ho] at g2
                cases g2
                exact ⟨_, if_pos rfl, g3⟩
              · exact ⟨o', by rw [if_neg c]; exact g2, g3⟩
            · have hy' : y ∈ s.list.erase a ++ [a] := hy
              rcases List.mem_append.1 hy' with hy' | hy'
              · exact h2 y (List.mem_of_mem_erase hy')
              · rw [List.mem_singleton] at hy'
                subst hy'
                exact h2 y hmem
        · cases e
  · cases e

theorem insert_keep {mem : Nat → Bool} {md : Nat} {s s' : State} {r : Req} (e : insert mem md s r = .ok s') : (Dead s → Dead s') ∧ (Live s → Live s') := by
  unfold insert hash at e
  split at e
  · cases e
    refine ⟨fun ⟨x, rest, h1, h2, h3, h4⟩ => ?_, fun ⟨h1, h2⟩ => ?_⟩
    · refine ⟨x, rest ++ [s.fresh], ?_, ?_, Nat.lt_succ_of_lt h3, fun id hid => ?_⟩
      · show s.list ++ [s.fresh] = _
        rw [h1]; rfl
      · show (if x = s.fresh then _ else _) = _
        rw [if_neg (by omega)]; exact h2
      · have g : (if id = r.id then some s.fresh else s.table id) = some x := hid
        by_cases c : id = r.id
        · rw [if_pos c] at g; cases g; omega
        · rw [if_neg c] at g; exact h4 id g
    · refine ⟨fun id y hy => ?_, fun y hy => ?_⟩
      · have g : (if id = r.id then some s.fresh else s.table id) = some y := hy
        show y < s.fresh + 1 ∧ ∃ o, (if y = s.fresh then _ else s.data y) = some o ∧ _
        by_cases c : id = r.id
        · rw [if_pos c] at g
          cases g
          exact ⟨Nat.lt_succ_self _, _, if_pos rfl, c.symm⟩
        · rw [if_neg c] at g
          obtain ⟨g1, o, g2, g3⟩ := h1 id y g
          exact ⟨by omega, o, by rw [if_neg (by omega)]; exact g2, g3⟩
      · have g : y ∈ s.list ++ [s.fresh] := hy
        show y < s.fresh + 1
        rcases List.mem_append.1 g with g | g
        · have := h2 y g; omega
        · rw [List.mem_singleton] at g; omega
  · cases e

theorem keep_either {s s' : State} (h : Either s) (k : (Dead s → Dead s') ∧ (Live s → Live s')) : Either s' := h.elim (fun d => .inl (k.1 d)) (fun l => .inr (k.2 l))

theorem shrink_dead {mem : Nat → Bool} {md cs : Nat} : ∀ (n : Nat) (s s' : State), Dead s → shrink mem md cs n s = .ok s' → Dead s'
  | 0, s, s', h, e => by
    unfold shrink at e
    split at e
    · cases e
    · cases e; exact h
  | n + 1, s, s', h, e => by
    unfold shrink at e
    split at e
    · rw [dead_evict h] at e
      cases e
    · cases e; exact h

theorem shrink_either {mem : Nat → Bool} {md cs : Nat} : ∀ (n : Nat) (s s' : State), Either s → shrink mem md cs n s = .ok s' → Either s'
  | 0, s, s', h, e => by
    unfold shrink at e
    split at e
    · cases e
    · cases e; exact h
  | n + 1, s, s', h, e => by
    unfold shrink at e
    split at e
    · rcases h with h | h
      · rw [dead_evict h] at e
        cases e
      · cases he : evict mem md s with
        | error x => rw [he] at e; cases e
        | ok s1 =>
          rw [he] at e
          exact shrink_either n s1 s' (.inl (live_evict h he)) e
    · cases e; exact h

theorem get_keep {mem : Nat → Bool} {md cs : Nat} {s s' : State} {r : Req} {b : Bool} (e : get mem md cs s r = .ok (b, s')) : (Dead s → Dead s') ∧ (Either s → Either s') := by
  unfold get at e
  cases hf : find mem s r true with
  | error x => rw [hf] at e; cases e
  | ok p =>
    obtain ⟨hit, s0⟩ := p
    rw [hf] at e
    have h0 := find_keep hf
    change (if r.size ≤ cs then (if hit = true then Except.ok s0 else insert mem md s0 r) >>= _ else Except.ok (hit, s0)) = _ at e
    split at e
    · cases hi : (if hit = true then Except.ok s0 else insert mem md s0 r) with
      | error x => rw [hi] at e; cases e
      | ok s1 =>
        have h1 : (Dead s0 → Dead s1) ∧ (Live s0 → Live s1) := by
          split at hi
          · cases hi; exact ⟨id, id⟩
          · exact insert_keep hi
        rw [hi] at e
        change (shrink mem md cs (s1.list.length + 1) s1 >>= _) = _ at e
        cases hs : shrink mem md cs (s1.list.length + 1) s1 with
        | error x => rw [hs] at e; cases e
        | ok s2 =>
          rw [hs] at e
          cases e
          exact ⟨fun d => shrink_dead _ _ _ (h1.1 (h0.1 d)) hs, fun d => shrink_either _ _ _ (keep_either (keep_either d h0) h1) hs⟩
    · cases e; exact ⟨h0.1, fun d => keep_either d h0⟩

theorem run_keep {mem : Nat → Bool} {md cs : Nat} : ∀ (rs : List Req) (s s' : State) (out : List Bool), run mem md cs s rs = .ok (out, s') → (Dead s → Dead s') ∧ (Either s → Either s')
  | [], s, s', out, e => by cases e; exact ⟨id, id⟩
  | r :: rs, s, s', out, e => by
    unfold run at e
    cases hg : get mem md cs s r with
    | error x => rw [hg] at e; cases e
    | ok p =>
      rw [hg] at e
      change (run mem md cs p.2 rs >>= _) = _ at e
      cases hr : run mem md cs p.2 rs with
      | error x => rw [hr] at e; cases e
      | ok q =>
        rw [hr] at e
        cases e
        have h1 := get_keep (b := p.1) (s' := p.2) hg
        have h2 := run_keep rs p.2 q.2 q.1 hr
        exact ⟨fun d => h2.1 (h1.1 d), fun d => h2.2 (h1.2 d)⟩

end Verif.LRUv0
