import Verif.Spec.FutureReuse
import Mathlib.Data.List.Induction

namespace Verif.Analyzer.FutureReuse

open Verif Verif.FutureReuseSpec

theorem pastFrom_append (q p : List Look) (r : Look) : pastFrom q (p ++ [r]) = pastFrom q p ++ [(q ++ p, r)] := by
  induction p generalizing q with
  | nil => simp [pastFrom]
  | cons a p ih => simp [pastFrom, ih, List.append_assoc]

theorem past_append (p : List Look) (r : Look) : past (p ++ [r]) = past p ++ [(p, r)] := by
  unfold past; rw [pastFrom_append]; simp

theorem past_length (l : List Look) : (past l).length = l.length := by
  induction l using List.reverseRecOn with
  | nil => rfl
  | append_singleton p r ih => rw [past_append]; simp [ih]

theorem past_mem {l : List Look} {x : List Look × Look} (h : x ∈ past l) : x.2 ∈ l ∧ x.1.length < l.length ∧ ∀ q ∈ x.1, q ∈ l ∧ (l.Pairwise (fun a b => a.time ≤ b.time) → q.time ≤ x.2.time) := by
  induction l using List.reverseRecOn with
  | nil => simp [past, pastFrom] at h
  | append_singleton p r ih =>
    rw [past_append, List.mem_append, List.mem_singleton] at h
    rcases h with h | rfl
    · obtain ⟨h1, h2, h3⟩ := ih h
      refine ⟨by simp [h1], by simp; omega, fun q hq => ⟨by simp [(h3 q hq).1], fun hp => (h3 q hq).2 ?_⟩⟩
      exact (List.pairwise_append.mp hp).1
    · refine ⟨by simp, by simp, fun q hq => ⟨?_, fun hp => ?_⟩⟩
      · exact List.mem_append_left _ hq
      · exact (List.pairwise_append.mp hp).2.2 q hq r (by simp)

/-- The first request to an object. -/
def firstOf (l : List Look) (id : Nat) : Option Look := (l.filter (fun q => q.id = id)).head?

/-- The requests at a position of the table. -/
def atPos (warmup : Int) (l : List Look) (p : Nat) : List (List Look × Look) :=
  (past l).filter (fun x => decide (Tracked warmup x) && decide ((posOf (age x)).toNat = p))

/-- What a cell has to say about these requests. -/
def cellOf (l : List (List Look × Look)) : Cell :=
  ⟨(reused l).length, (stopped l).length, 0, hits (reused l), 0, hits (stopped l)⟩

structure Rep (warmup : Int) (l : List Look) (s : State) : Prop where
  warm : ∀ id, id ∈ s.warm ↔ ∃ r ∈ l, r.id = id ∧ r.time < warmup
  absent : ∀ id, firstOf l id = none → s.info.lookup id = none
  skip : ∀ id f, firstOf l id = some f → ¬ (warmup ≤ f.time ∧ f.time ≤ warmup + 86400) → s.info.lookup id = none
  present : ∀ id f, firstOf l id = some f → warmup ≤ f.time → f.time ≤ warmup + 86400 →
    ∃ i, s.info.lookup id = some i ∧ i.create = f.time ∧ i.freq = ((l.filter (fun q => q.id = id)).length : Int) - 1
  cells : ∀ p, s.cells p = cellOf (atPos warmup l p)

theorem rep_init (warmup : Int) : Rep warmup [] State.init where
  warm := by intro id; simp [State.init]
  absent := by intro id _; rfl
  skip := by intro id f h; simp [firstOf] at h
  present := by intro id f h; simp [firstOf] at h
  cells := by intro p; rfl

theorem i32_id {x : Int} (h0 : 0 ≤ x) (h1 : x < 2147483648) : i32 x = x := by unfold i32; omega

theorem lookup_put (m : List (Nat × Info)) (id k : Nat) (i : Info) :
    (put m id i).lookup k = if k = id then some i else m.lookup k := by
  unfold put
  by_cases h : k = id
  · subst h; simp [List.lookup]
  · have : (k == id) = false := by simpa using h
    rw [List.lookup, this, if_neg h]
    induction m with
    | nil => rfl
    | cons a m ih =>
      by_cases ha : a.1 = id
      · have : (k == a.1) = false := by rw [ha]; simpa using h
        rw [List.filter_cons_of_neg (by simpa using ha), ih]
        simp [List.lookup, this]
      · rw [List.filter_cons_of_pos (by simpa using ha)]
        obtain ⟨a1, a2⟩ := a
        simp only [List.lookup]
        cases k == a1 with
        | true => rfl
        | false => exact ih

theorem firstOf_append_ne {l : List Look} {r : Look} {id : Nat} (h : r.id ≠ id) : firstOf (l ++ [r]) id = firstOf l id := by
  unfold firstOf; rw [List.filter_append]; simp [h]

theorem firstOf_append_eq (l : List Look) (r : Look) : firstOf (l ++ [r]) r.id = some ((firstOf l r.id).getD r) := by
  unfold firstOf; rw [List.filter_append]
  cases h : l.filter (fun q => q.id = r.id) with
  | nil => simp
  | cons a t => simp

theorem created_eq (l : List Look) (r : Look) : created (l, r) = ((firstOf l r.id).getD r).time := by
  unfold created earlier firstOf
  cases h : l.filter (fun q => decide (q.id = (l, r).2.id)) with
  | nil => rfl
  | cons a t => rfl

theorem atPos_append_out {warmup : Int} {l : List Look} {r : Look} {p : Nat} (h : ¬ (Tracked warmup (l, r) ∧ (posOf (age (l, r))).toNat = p)) :
    atPos warmup (l ++ [r]) p = atPos warmup l p := by
  unfold atPos
  rw [past_append, List.filter_append, List.filter_cons_of_neg, List.filter_nil, List.append_nil]
  simpa using h

theorem atPos_append_in {warmup : Int} {l : List Look} {r : Look} {p : Nat} (h : Tracked warmup (l, r) ∧ (posOf (age (l, r))).toNat = p) :
    atPos warmup (l ++ [r]) p = atPos warmup l p ++ [(l, r)] := by
  unfold atPos
  rw [past_append, List.filter_append, List.filter_cons_of_pos, List.filter_nil]
  simpa using h

theorem atPos_length (warmup : Int) (l : List Look) (p : Nat) : (atPos warmup l p).length ≤ l.length := by
  unfold atPos
  exact Nat.le_trans (List.length_filter_le _ _) (Nat.le_of_eq (past_length l))

theorem hits_le {xs : List (List Look × Look)} {n : Nat} (h : ∀ x ∈ xs, x.1.length ≤ n) : hits xs ≤ xs.length * n := by
  induction xs with
  | nil => simp [hits]
  | cons a t ih =>
    have h1 := ih (fun x hx => h x (by simp [hx]))
    have h2 : (earlier a).length ≤ n := Nat.le_trans (List.length_filter_le _ _) (h a (by simp))
    unfold hits at *
    simp only [List.map_cons, List.sum_cons, List.length_cons]
    rw [Nat.add_mul]
    omega

theorem hits_append (xs : List (List Look × Look)) (x : List Look × Look) : hits (xs ++ [x]) = hits xs + (earlier x).length := by
  unfold hits; simp

theorem reused_append (xs : List (List Look × Look)) (x : List Look × Look) :
    reused (xs ++ [x]) = reused xs ++ if Reused x then [x] else [] := by
  unfold reused; rw [List.filter_append]; by_cases h : Reused x <;> simp [h]

theorem stopped_append (xs : List (List Look × Look)) (x : List Look × Look) :
    stopped (xs ++ [x]) = stopped xs ++ if Reused x then [] else [x] := by
  unfold stopped; rw [List.filter_append]; by_cases h : Reused x <;> simp [h]

theorem count_spec {xs : List (List Look × Look)} {l : List Look} {r : Look} {i : Info} (hlen : xs.length ≤ l.length) (hl : l.length < 2147483648)
    (hx : ∀ x ∈ xs, x.1.length ≤ l.length) (hf : i.freq = ((earlier (l, r)).length : Int)) (ha : i.last = -1 ∨ i.last = i32 r.time) :
    count r i (cellOf xs) = cellOf (xs ++ [(l, r)]) := by
  have hage : (if i.last = -1 then (0 : Int) else i32 r.time - i.last) = 0 := by
    rcases ha with h | h
    · rw [if_pos h]
    · split
      · rfl
      · rw [h]; omega
  have hb : ∀ ys : List (List Look × Look), ys.length ≤ xs.length → (∀ y ∈ ys, y ∈ xs) → hits ys ≤ 2147483647 * 2147483647 := by
    intro ys h1 h2
    refine Nat.le_trans (hits_le (n := l.length) (fun y hy => hx y (h2 y hy))) (Nat.mul_le_mul (by omega) (by omega))
  have hbr := hb (reused xs) (List.length_filter_le _ _) (fun y hy => (List.mem_filter.mp hy).1)
  have hbs := hb (stopped xs) (List.length_filter_le _ _) (fun y hy => (List.mem_filter.mp hy).1)
  have hlr : (reused xs).length ≤ xs.length := List.length_filter_le _ _
  have hls : (stopped xs).length ≤ xs.length := List.length_filter_le _ _
  have he : (earlier (l, r)).length ≤ l.length := List.length_filter_le _ _
  have hadd : ∀ a : Nat, a ≤ 2147483647 * 2147483647 → add64 a i.freq = a + (earlier (l, r)).length := by
    intro a h
    unfold add64 two64
    rw [hf]
    omega
  have h0 : add64 0 0 = 0 := rfl
  unfold count cellOf
  simp only [hage]
  rw [reused_append, stopped_append]
  by_cases hr : Reused (l, r)
  · rw [if_pos (show 0 ≤ r.next ∧ r.next ≠ int64Max from hr), if_pos hr, if_pos hr, List.append_nil, hits_append, hadd _ hbr, h0, List.length_append, List.length_singleton]
    rw [Nat.mod_eq_of_lt (by unfold two32; omega)]
  · rw [if_neg (show ¬ (0 ≤ r.next ∧ r.next ≠ int64Max) from hr), if_neg hr, if_neg hr, List.append_nil, hits_append, hadd _ hbs, h0, List.length_append, List.length_singleton]
    rw [Nat.mod_eq_of_lt (by unfold two32; omega)]

theorem atPos_mem {warmup : Int} {l : List Look} {p : Nat} {x : List Look × Look} (h : x ∈ atPos warmup l p) : x.1.length ≤ l.length :=
  Nat.le_of_lt (past_mem (List.mem_filter.mp h).1).2.1

theorem firstOf_mem {l : List Look} {id : Nat} {f : Look} (h : firstOf l id = some f) : f ∈ l ∧ f.id = id := by
  have := List.mem_of_mem_head? h
  simpa using this

theorem firstOf_le {l : List Look} {id : Nat} {f : Look} (ho : l.Pairwise (fun a b => a.time ≤ b.time)) (h : firstOf l id = some f) {q : Look} (hq : q ∈ l) (hi : q.id = id) :
    f.time ≤ q.time := by
  unfold firstOf at h
  have hq' : q ∈ l.filter (fun q => q.id = id) := by simp [hq, hi]
  cases he : l.filter (fun q => decide (q.id = id)) with
  | nil => rw [he] at h; cases h
  | cons a t =>
    rw [he] at h hq'
    obtain rfl : a = f := by simpa using h
    have hp := ho.sublist (List.filter_sublist (p := fun q : Look => decide (q.id = id)))
    rw [he, List.pairwise_cons] at hp
    rcases List.mem_cons.mp hq' with rfl | hq'
    · exact Int.le_refl _
    · exact hp.1 q hq'

theorem firstOf_none {l : List Look} {id : Nat} (h : firstOf l id = none) : ∀ q ∈ l, q.id ≠ id := by
  intro q hq hi
  unfold firstOf at h
  rw [List.head?_eq_none_iff, List.filter_eq_nil_iff] at h
  exact h q hq (by simpa using hi)

theorem posOf_lt {t : Int} (h1 : t < 80 * 86400) : posOf t < arraySize := by
  unfold posOf arraySize fine gran maxTime
  split <;> omega

/-- One request. -/
theorem step {warmup : Int} {l : List Look} {r : Look} {s : State} (h : Rep warmup l s) (hg : Good (l ++ [r]))
    (hr : Tracked warmup (l, r) → age (l, r) < 80 * 86400) : ∃ s', s.add warmup r = .ok s' ∧ Rep warmup (l ++ [r]) s' := by
  have ho := List.pairwise_append.mp hg.ordered
  have hle : ∀ q ∈ l, q.time ≤ r.time := fun q hq => ho.2.2 q hq r (by simp)
  have htr := hg.times r (by simp)
  have hlen : l.length < 2147483648 := by have := hg.short; simp at this; omega
  -- a request that is not counted and leaves the map alone
  have skip : ¬ Tracked warmup (l, r) → ∀ w : List Nat, (∀ id, id ∈ w ↔ ∃ q ∈ l ++ [r], q.id = id ∧ q.time < warmup) → s.info.lookup r.id = none →
      Rep warmup (l ++ [r]) { s with warm := w } := by
    intro hnt w hw hnone
    have hcr : ¬ (warmup ≤ ((firstOf l r.id).getD r).time ∧ ((firstOf l r.id).getD r).time ≤ warmup + 86400) := by
      rw [← created_eq]; exact hnt
    refine ⟨hw, fun id hid => ?_, fun id f hf hn => ?_, fun id f hf h1 h2 => ?_, fun p => ?_⟩
    · by_cases e : r.id = id
      · subst e; exact hnone
      · exact h.absent id (by rwa [firstOf_append_ne e] at hid)
    · by_cases e : r.id = id
      · subst e; exact hnone
      · exact h.skip id f (by rwa [firstOf_append_ne e] at hf) hn
    · by_cases e : r.id = id
      · subst e
        rw [firstOf_append_eq] at hf
        obtain rfl := Option.some.inj hf
        exact absurd ⟨h1, h2⟩ hcr
      · rw [firstOf_append_ne e] at hf
        obtain ⟨i, hi, hc, hfr⟩ := h.present id f hf h1 h2
        refine ⟨i, hi, hc, ?_⟩
        rw [hfr, List.filter_append]; simp [e]
    · rw [atPos_append_out (fun hh => hnt hh.1)]
      exact h.cells p
  -- a request that is counted
  have take : ∀ i : Info, Tracked warmup (l, r) → i.create = created (l, r) → i.freq = ((earlier (l, r)).length : Int) → (i.last = -1 ∨ i.last = i32 r.time) →
      (∀ id, id ∈ s.warm ↔ ∃ q ∈ l ++ [r], q.id = id ∧ q.time < warmup) →
      Rep warmup (l ++ [r]) { s with info := put s.info r.id i
                                     cells := fun p => if p = (posOf (age (l, r))).toNat then count r i (s.cells p) else s.cells p } := by
    intro i ht hc hf hlast hw
    have hcr : warmup ≤ ((firstOf l r.id).getD r).time ∧ ((firstOf l r.id).getD r).time ≤ warmup + 86400 := by
      rw [← created_eq]; exact ht
    refine ⟨hw, fun id hid => ?_, fun id f hf' hn => ?_, fun id f hf' h1 h2 => ?_, fun p => ?_⟩
    · by_cases e : r.id = id
      · subst e; rw [firstOf_append_eq] at hid; cases hid
      · show (put s.info r.id i).lookup id = _
        rw [lookup_put, if_neg (fun e' => e e'.symm)]
        exact h.absent id (by rwa [firstOf_append_ne e] at hid)
    · by_cases e : r.id = id
      · subst e; rw [firstOf_append_eq] at hf'
        obtain rfl := Option.some.inj hf'
        exact absurd hcr hn
      · show (put s.info r.id i).lookup id = _
        rw [lookup_put, if_neg (fun e' => e e'.symm)]
        exact h.skip id f (by rwa [firstOf_append_ne e] at hf') hn
    · by_cases e : r.id = id
      · subst e; rw [firstOf_append_eq] at hf'
        obtain rfl := Option.some.inj hf'
        refine ⟨i, ?_, ?_, ?_⟩
        · show (put s.info r.id i).lookup r.id = _
          rw [lookup_put, if_pos rfl]
        · rw [hc, created_eq]
        · rw [hf, List.filter_append]; unfold earlier; simp
      · rw [firstOf_append_ne e] at hf'
        obtain ⟨j, hj, hjc, hjf⟩ := h.present id f hf' h1 h2
        refine ⟨j, ?_, hjc, ?_⟩
        · show (put s.info r.id i).lookup id = _
          rw [lookup_put, if_neg (fun e' => e e'.symm)]; exact hj
        · rw [hjf, List.filter_append]; simp [e]
    · show (if p = (posOf (age (l, r))).toNat then count r i (s.cells p) else s.cells p) = _
      by_cases e : p = (posOf (age (l, r))).toNat
      · rw [if_pos e, atPos_append_in ⟨ht, e.symm⟩, h.cells p]
        exact count_spec (atPos_length _ _ _) hlen (fun x hx => atPos_mem hx) hf hlast
      · rw [if_neg e, atPos_append_out (fun hh => e hh.2.symm)]
        exact h.cells p
  unfold State.add
  by_cases hw : r.time < warmup
  · rw [if_pos hw]
    refine ⟨_, rfl, skip ?_ _ ?_ ?_⟩
    · rintro ⟨h1, _⟩
      rw [created_eq] at h1
      cases hf : firstOf l r.id with
      | none => rw [hf] at h1; simp at h1; omega
      | some f =>
        rw [hf] at h1
        have := hle f (firstOf_mem hf).1
        simp at h1; omega
    · intro id
      rw [List.mem_cons, h.warm]
      constructor
      · rintro (rfl | ⟨q, hq, h1, h2⟩)
        · exact ⟨r, by simp, rfl, hw⟩
        · exact ⟨q, List.mem_append_left _ hq, h1, h2⟩
      · rintro ⟨q, hq, h1, h2⟩
        rcases List.mem_append.mp hq with hq | hq
        · exact Or.inr ⟨q, hq, h1, h2⟩
        · obtain rfl := List.mem_singleton.mp hq; exact Or.inl h1.symm
    · cases hf : firstOf l r.id with
      | none => exact h.absent _ hf
      | some f => exact h.skip _ f hf (by have := hle f (firstOf_mem hf).1; omega)
  · rw [if_neg hw]
    have hw' : ∀ id, id ∈ s.warm ↔ ∃ q ∈ l ++ [r], q.id = id ∧ q.time < warmup := by
      intro id
      rw [h.warm]
      constructor
      · rintro ⟨q, hq, h1, h2⟩; exact ⟨q, List.mem_append_left _ hq, h1, h2⟩
      · rintro ⟨q, hq, h1, h2⟩
        rcases List.mem_append.mp hq with hq | hq
        · exact ⟨q, hq, h1, h2⟩
        · obtain rfl := List.mem_singleton.mp hq; exact absurd h2 hw
    by_cases hm : r.id ∈ s.warm
    · rw [if_pos hm]
      obtain ⟨q, hq, h1, h2⟩ := (h.warm _).mp hm
      cases hf : firstOf l r.id with
      | none => exact absurd h1 (firstOf_none hf q hq)
      | some f =>
        have hft := firstOf_le ho.1 hf hq h1
        refine ⟨s, rfl, skip ?_ s.warm hw' (h.skip _ f hf (by omega))⟩
        rintro ⟨h3, _⟩
        rw [created_eq, hf] at h3
        simp at h3; omega
    · rw [if_neg hm, if_neg (hg.known r (by simp))]
      unfold entry createWindow
      cases hf : firstOf l r.id with
      | none =>
        rw [h.absent _ hf]
        have hc : created (l, r) = r.time := by rw [created_eq, hf]; rfl
        have he : earlier (l, r) = [] := by
          unfold earlier
          rw [List.filter_eq_nil_iff]
          intro q hq
          simpa using firstOf_none hf q hq
        by_cases hlate : r.time > warmup + 86400
        · simp only [if_pos hlate]
          refine ⟨s, rfl, skip ?_ s.warm hw' (h.absent _ hf)⟩
          rintro ⟨_, h3⟩; omega
        · simp only [if_neg hlate]
          have ht : Tracked warmup (l, r) := ⟨by omega, by omega⟩
          have ha : age (l, r) = 0 := by unfold age; rw [hc]; show r.time - r.time = 0; omega
          have hz : i32 r.time - i32 r.time = 0 := by omega
          rw [hz, if_neg (by omega), if_neg (by simpa using posOf_lt (t := 0) (by omega))]
          have := take ⟨i32 r.time, -1, 0⟩ ht (by rw [hc]; exact i32_id htr.1 htr.2) (by rw [he]; rfl) (Or.inl rfl) hw'
          rw [ha] at this
          exact ⟨_, rfl, this⟩
      | some f =>
        have hfm := firstOf_mem hf
        have hfl := hle f hfm.1
        have hc : created (l, r) = f.time := by rw [created_eq, hf]; rfl
        have hfw : warmup ≤ f.time := by
          by_cases h1 : f.time < warmup
          · exact absurd ((h.warm r.id).mpr ⟨f, hfm.1, hfm.2, h1⟩) hm
          · omega
        by_cases hlate : f.time ≤ warmup + 86400
        · have ht : Tracked warmup (l, r) := ⟨by omega, by omega⟩
          obtain ⟨i, hi, hic, hif⟩ := h.present _ f hf hfw hlate
          rw [hi]
          have ha : i32 r.time - i.create = age (l, r) := by
            unfold age; rw [hc, hic, i32_id htr.1 htr.2]
          have ha0 : 0 ≤ age (l, r) := by unfold age; rw [hc]; show 0 ≤ r.time - f.time; omega
          simp only [ha]
          rw [if_neg (by omega), if_neg (by simpa using posOf_lt (hr ht))]
          exact ⟨_, rfl, take ⟨i.create, i32 r.time, i.freq + 1⟩ ht (by show i.create = _; rw [hic, hc]) (by show i.freq + 1 = _; rw [hif]; unfold earlier; simp) (Or.inr rfl) hw'⟩
        · rw [h.skip _ f hf (by omega)]
          have : r.time > warmup + 86400 := by omega
          simp only [if_pos this]
          refine ⟨s, rfl, skip ?_ s.warm hw' (h.skip _ f hf (by omega))⟩
          rintro ⟨_, h3⟩; omega

theorem run_append (warmup : Int) (l : List Look) (r : Look) : run warmup (l ++ [r]) = run warmup l >>= fun s => s.add warmup r := by
  unfold run; rw [List.foldl_append]; rfl

theorem good_prefix {l : List Look} {r : Look} (h : Good (l ++ [r])) : Good l :=
  ⟨(List.pairwise_append.mp h.ordered).1, fun q hq => h.times q (List.mem_append_left _ hq), fun q hq => h.known q (List.mem_append_left _ hq),
    by have := h.short; simp at this; omega⟩

theorem run_spec {warmup : Int} {l : List Look} (hg : Good l) (hr : Recent warmup l) : ∃ s, run warmup l = .ok s ∧ Rep warmup l s := by
  induction l using List.reverseRecOn with
  | nil => exact ⟨_, rfl, rep_init warmup⟩
  | append_singleton p r ih =>
    obtain ⟨s, h1, h2⟩ := ih (good_prefix hg) (fun x hx => hr x (by rw [past_append]; exact List.mem_append_left _ hx))
    obtain ⟨s', h3, h4⟩ := step h2 hg (hr (p, r) (by rw [past_append]; simp))
    exact ⟨s', by rw [run_append, h1]; exact h3, h4⟩

theorem age_nonneg {l : List Look} (hg : Good l) {x : List Look × Look} (hx : x ∈ past l) : 0 ≤ age x := by
  unfold age created
  cases he : earlier x with
  | nil => show 0 ≤ x.2.time - x.2.time; omega
  | cons a t =>
    have : a ∈ x.1 := (List.mem_filter.mp (by unfold earlier at he; rw [he]; simp : a ∈ x.1.filter (fun q => decide (q.id = x.2.id)))).1
    have := ((past_mem hx).2.2 a this).2 hg.ordered
    show 0 ≤ x.2.time - a.time
    omega

/-- The requests at a position of the table are those of a range of ages. -/
theorem atPos_aged {warmup : Int} {l : List Look} (hg : Good l) (p : Nat) (a b : Int)
    (h : ∀ t : Int, 0 ≤ t → ((posOf t).toNat = p ↔ a ≤ t ∧ t < b)) : atPos warmup l p = aged warmup a b l := by
  unfold atPos aged
  apply List.filter_congr
  intro x hx
  have := h (age x) (age_nonneg hg hx)
  rw [Bool.eq_iff_iff]
  simp only [Bool.and_eq_true, decide_eq_true_eq]
  rw [this]
  constructor
  · rintro ⟨h1, h2, h3⟩; exact ⟨⟨h1, h2⟩, h3⟩
  · rintro ⟨⟨h1, h2⟩, h3⟩; exact ⟨h1, h2, h3⟩

theorem cellOf_pos {xs : List (List Look × Look)} (h : xs.length < 2147483648) :
    (((cellOf xs).reuse + (cellOf xs).stop) % two32 = 0) ↔ xs = [] := by
  have : (reused xs).length + (stopped xs).length = xs.length := by
    unfold reused stopped
    clear h
    induction xs with
    | nil => rfl
    | cons a t ih => by_cases hr : Reused a <;> simp [hr] at ih ⊢ <;> omega
  show ((reused xs).length + (stopped xs).length) % two32 = 0 ↔ _
  rw [this, Nat.mod_eq_of_lt (by unfold two32; omega)]
  exact List.length_eq_zero_iff

/-- The positions and the labels. -/
theorem label_cases (p : Nat) (hp : (p : Int) < arraySize) (hl : timeOf p ≠ -1) :
    (timeOf p = p ∧ p ≤ 3600 ∧ ∀ t : Int, 0 ≤ t → ((posOf t).toNat = p ↔ timeOf p ≤ t ∧ t < timeOf p + 1)) ∨
    (3600 ≤ timeOf p ∧ 4320 ≤ p ∧ timeOf p = ((p : Int) - 3600) * 5 ∧ timeOf p < 80 * 86400 ∧
      ∀ t : Int, 0 ≤ t → ((posOf t).toNat = p ↔ max (timeOf p) 3601 ≤ t ∧ t < timeOf p + 5)) := by
  unfold arraySize maxTime fine gran at hp
  unfold timeOf fine gran at *
  by_cases h1 : (p : Int) > 3600
  · rw [if_pos h1] at *
    by_cases h2 : (p : Int) < 3600 + 3600 / 5
    · rw [if_pos h2] at hl; exact absurd rfl hl
    · rw [if_neg h2] at *
      refine Or.inr ⟨by omega, by omega, rfl, by omega, fun t ht => ?_⟩
      unfold posOf fine gran
      split
      · rw [show max (((p : Int) - 3600) * 5) 3601 ≤ t ↔ ((p : Int) - 3600) * 5 ≤ t ∧ 3601 ≤ t from ⟨fun h => ⟨by omega, by omega⟩, fun h => by omega⟩]
        omega
      · omega
  · rw [if_neg h1] at *
    refine Or.inl ⟨rfl, by omega, fun t ht => ?_⟩
    unfold posOf fine gran
    split <;> omega

end Verif.Analyzer.FutureReuse
