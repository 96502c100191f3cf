import Verif.Proof.AnalyzerReuse

/-!
# Popularity decay, over any annotated requests
-/

namespace Verif.Analyzer
open Spec.TraceStats

/-- The time window of a request and of the first request to its object. -/
def winIdx (w : Nat) (n : Note) : Nat := n.rel.toNat / w
/-- see `winIdx` -/
def bornIdx (w : Nat) (n : Note) : Nat := n.createR.toNat / w

/-- Requests to objects created after the warm-up. -/
def tracked (w shift : Nat) (n : Note) : Bool := decide (shift ≤ bornIdx w n)

/-- Entry `j` of row `i`. -/
def decayCell (w B shift : Nat) (ns : List Note) (i j : Nat) : Nat :=
  ns.countP (fun n => n.first && decide (winIdx w n = B + i) && decide (bornIdx w n = shift + j))

/-- Row `i`. -/
def decayRow (w B shift : Nat) (ns : List Note) (i : Nat) : List Nat :=
  (List.range (i + 1)).map (decayCell w B shift ns i)

/-- The row of the current window: how many windows after `B` the last tracked request is. -/
def decayR (w B shift : Nat) (ns : List Note) : Nat :=
  (((ns.filter (tracked w shift)).getLast?).map (fun n => winIdx w n - B)).getD 0

theorem skip_spec {w : Nat} (hw : 0 < w) (t : Nat) (M : Nat) (hM : t < M * w) :
    ∀ (fuel k : Nat), 0 < k → k ≤ M → t < k * w + (fuel - 1) → 1 ≤ fuel →
      ∃ k', 0 < k' ∧ k' ≤ M ∧ Decay.skip w (t : Int) fuel ((k * w : Nat) : Int) = .ok ((k' * w : Nat) : Int) := by
  intro fuel
  induction fuel with
  | zero => intro k _ _ _ h; omega
  | succ fuel ih =>
    intro k hk0 hk h _
    unfold Decay.skip
    by_cases hc : k * w ≤ t
    · have hc' : ((k * w : Nat) : Int) ≤ (t : Int) := by exact_mod_cast hc
      rw [if_pos hc']
      have hlt : k < M := by
        by_contra hge
        have : M * w ≤ k * w := Nat.mul_le_mul_right _ (by omega)
        omega
      have e : ((k * w : Nat) : Int) + (w : Int) = (((k + 1) * w : Nat) : Int) := by
        rw [Nat.add_mul]; push_cast; omega
      rw [e]
      apply ih (k + 1) (by omega) (by omega)
      · rw [Nat.add_mul]; omega
      · rcases Nat.eq_zero_or_pos fuel with rfl | h3
        · omega
        · exact h3
    · have hc' : ¬ ((k * w : Nat) : Int) ≤ (t : Int) := by exact_mod_cast hc
      rw [if_neg hc']
      exact ⟨k, hk0, hk, rfl⟩

theorem decay_flush_spec {w warmup : Nat} (hw : 0 < w) (B : Nat) (hB : warmup ≤ (B + 1) * w) (t : Nat) :
    ∀ (fuel R : Nat) (obj : List Nat) (out : List (List Nat)), obj.length = R + 1 →
      t < (B + R + 1) * w + (fuel - 1) → 1 ≤ fuel →
      Decay.flush w warmup (t : Int) fuel { next := (((B + R + 1) * w : Nat) : Int), obj := obj, out := out } =
        .ok (if t / w ≤ B + R then { next := (((B + R + 1) * w : Nat) : Int), obj := obj, out := out }
          else { next := (((t / w + 1) * w : Nat) : Int), obj := List.replicate (t / w - B + 1) 0, out := out ++ obj :: (List.range (t / w - B - R - 1)).map (fun i => List.replicate (R + 1 + i + 1) 0) }) := by
  intro fuel
  induction fuel with
  | zero => intro R _ _ _ _ h; omega
  | succ fuel ih =>
    intro R obj out hl h _
    unfold Decay.flush
    by_cases hc : (B + R + 1) * w ≤ t
    · have hc' : (((B + R + 1) * w : Nat) : Int) ≤ (t : Int) := by exact_mod_cast hc
      have hwu : ¬ ((((B + R + 1) * w : Nat) : Int) < (warmup : Int)) := by
        have : (B + 1) * w ≤ (B + R + 1) * w := Nat.mul_le_mul_right _ (by omega)
        omega
      simp only [if_pos hc', if_neg hwu]
      have e : (((B + R + 1) * w : Nat) : Int) + (w : Int) = (((B + (R + 1) + 1) * w : Nat) : Int) := by
        rw [show B + (R + 1) + 1 = (B + R + 1) + 1 by omega, Nat.add_mul (B + R + 1)]; push_cast; omega
      rw [e, ih (R + 1) (List.replicate (obj.length + 1) 0) (out ++ [obj]) (by simp [hl]) ?_ ?_]
      · have hq : B + R + 1 ≤ t / w := (Nat.le_div_iff_mul_le hw).mpr hc
        have hn : ¬ t / w ≤ B + R := by omega
        rw [if_neg hn]
        congr 1
        by_cases h2 : t / w ≤ B + (R + 1)
        · have hqe : t / w = B + R + 1 := by omega
          rw [if_pos h2, hqe, hl]
          have e1 : B + R + 1 - B - R - 1 = 0 := by omega
          have e2 : B + R + 1 - B + 1 = R + 1 + 1 := by omega
          rw [e1, e2]
          simp only [List.range_zero, List.map_nil, Decay.mk.injEq, and_true]
          rfl
        · rw [if_neg h2]
          have e1 : t / w - B - R - 1 = (t / w - B - (R + 1) - 1) + 1 := by omega
          rw [e1, List.range_succ_eq_map, List.map_cons, List.map_map, hl]
          simp only [Decay.mk.injEq, true_and, List.append_assoc, List.singleton_append]
          congr 3
          apply List.map_congr_left
          intro i _
          simp only [Function.comp]
          congr 1
          omega
      · rw [show B + (R + 1) + 1 = (B + R + 1) + 1 by omega, Nat.add_mul (B + R + 1)]; omega
      · rcases Nat.eq_zero_or_pos fuel with rfl | h3
        · omega
        · exact h3
    · have hc' : ¬ (((B + R + 1) * w : Nat) : Int) ≤ (t : Int) := by exact_mod_cast hc
      simp only [if_neg hc']
      have : t / w ≤ B + R := Nat.lt_succ_iff.mp ((Nat.div_lt_iff_lt_mul hw).mpr (Nat.lt_of_not_le hc))
      rw [if_pos this]

/-- The facts about annotated requests the module relies on. -/
structure Born (ns : List Note) : Prop where
  timed : Timed ns
  born : ∀ n ∈ ns, 0 ≤ n.createR ∧ n.createR ≤ n.rel ∧ n.rel ≤ 2147483647

/-- The state after the requests `ns`. -/
structure DecayInv (w shift B : Nat) (ns : List Note) (s : Decay) : Prop where
  rows : s.out = (List.range (decayR w B shift ns)).map (decayRow w B shift ns)
  cur : s.obj = decayRow w B shift ns (decayR w B shift ns)
  next : s.next = (((B + decayR w B shift ns + 1) * w : Nat) : Int) ∨
    (decayR w B shift ns = 0 ∧ 0 < shift ∧ ns.filter (tracked w shift) = [] ∧ ∃ k, 0 < k ∧ k ≤ shift ∧ s.next = ((k * w : Nat) : Int))

theorem decayR_append (w B shift : Nat) (ns : List Note) (n : Note) :
    decayR w B shift (ns ++ [n]) = if tracked w shift n then winIdx w n - B else decayR w B shift ns := by
  unfold decayR
  rw [List.filter_append]
  by_cases h : tracked w shift n
  · simp [h]
  · simp [h]

theorem decayCell_append (w B shift : Nat) (ns : List Note) (n : Note) (i j : Nat) :
    decayCell w B shift (ns ++ [n]) i j = decayCell w B shift ns i j +
      (if n.first = true ∧ winIdx w n = B + i ∧ bornIdx w n = shift + j then 1 else 0) := by
  unfold decayCell
  rw [List.countP_append]
  congr 1
  simp only [List.countP_cons, List.countP_nil, Bool.and_eq_true, decide_eq_true_eq, and_assoc, Nat.zero_add]

theorem decayCell_zero {w B shift : Nat} {ns : List Note} {i j : Nat}
    (h : ∀ n ∈ ns, tracked w shift n = true → winIdx w n < B + i) : decayCell w B shift ns i j = 0 := by
  unfold decayCell
  rw [List.countP_eq_zero]
  intro n hn hc
  simp only [Bool.and_eq_true, decide_eq_true_eq] at hc
  have := h n hn (by unfold tracked; simp; omega)
  omega

theorem decayRow_zero {w B shift : Nat} {ns : List Note} {i : Nat}
    (h : ∀ n ∈ ns, tracked w shift n = true → winIdx w n < B + i) :
    decayRow w B shift ns i = List.replicate (i + 1) 0 := by
  unfold decayRow
  rw [List.eq_replicate_iff]
  refine ⟨by simp, fun b hb => ?_⟩
  rw [List.mem_map] at hb
  obtain ⟨j, _, rfl⟩ := hb
  exact decayCell_zero h

theorem winIdx_le {w B shift : Nat} {ns : List Note} (h : Timed ns) {n : Note} (hn : n ∈ ns)
    (ht : tracked w shift n = true) : winIdx w n ≤ B + decayR w B shift ns := by
  unfold decayR
  have hmem : n ∈ ns.filter (tracked w shift) := List.mem_filter.mpr ⟨hn, ht⟩
  have hs : (ns.filter (tracked w shift)).Pairwise (fun a b => a.rel ≤ b.rel) := h.sorted.filter _
  generalize ns.filter (tracked w shift) = l at hmem hs
  cases l using List.reverseRecOn with
  | nil => simp at hmem
  | append_singleton l a =>
    have : winIdx w n ≤ winIdx w a := by
      unfold winIdx
      apply Nat.div_le_div_right
      rw [List.mem_append, List.mem_singleton] at hmem
      rcases hmem with hm | rfl
      · have := (List.pairwise_append.mp hs).2.2 n hm a (by simp); omega
      · exact Nat.le_refl _
    simp
    omega

theorem decay_step {w shift B : Nat} (hw : 0 < w) (hB : B = shift - 1) {ns : List Note} {n : Note} {s : Decay}
    (hb : Born (ns ++ [n])) (hi : DecayInv w shift B ns s) :
    ∃ s', s.add w (shift * w) n = .ok s' ∧ DecayInv w shift B (ns ++ [n]) s' := by
  obtain ⟨h1, h2, h3⟩ := hb.timed.left
  obtain ⟨b1, b2, b3⟩ := hb.born n (by simp)
  have hnext : s.next ≠ -1 := by
    rcases hi.next with e | ⟨_, _, _, k, _, _, e⟩ <;> rw [e] <;> omega
  have ecast : ((n.rel.toNat : Nat) : Int) = n.rel := by omega
  have ewi : windowIdx w n.createR = bornIdx w n := by
    unfold windowIdx bornIdx
    rw [u32of_of b1 (by omega)]
  have ediv : shift * w / w = shift := Nat.mul_div_cancel _ hw
  have hbw : bornIdx w n ≤ winIdx w n := by
    unfold bornIdx winIdx
    exact Nat.div_le_div_right (by omega)
  -- what an untracked request leaves
  have hun : tracked w shift n = false → ∀ s' : Decay, s'.obj = s.obj → s'.out = s.out →
      (s'.next = s.next ∨ (∃ k, decayR w B shift ns = 0 ∧ 0 < shift ∧ ns.filter (tracked w shift) = [] ∧ 0 < k ∧ k ≤ shift ∧ s'.next = ((k * w : Nat) : Int))) →
      DecayInv w shift B (ns ++ [n]) s' := by
    intro ht s' e1 e2 e3
    have hR : decayR w B shift (ns ++ [n]) = decayR w B shift ns := by rw [decayR_append, ht]; rfl
    have hrow : ∀ i, decayRow w B shift (ns ++ [n]) i = decayRow w B shift ns i := by
      intro i
      unfold decayRow
      apply List.map_congr_left
      intro j _
      have hc : ¬ (n.first = true ∧ winIdx w n = B + i ∧ bornIdx w n = shift + j) := by
        rintro ⟨_, _, h⟩
        unfold tracked at ht
        simp only [decide_eq_false_iff_not] at ht
        omega
      rw [decayCell_append, if_neg hc, Nat.add_zero]
    have hf : (ns ++ [n]).filter (tracked w shift) = ns.filter (tracked w shift) := by
      rw [List.filter_append]; simp [ht]
    refine ⟨?_, ?_, ?_⟩
    · rw [e2, hi.rows, hR]
      exact List.map_congr_left (fun i _ => (hrow i).symm)
    · rw [e1, hi.cur, hR, hrow]
    · rw [hR, hf]
      rcases e3 with e3 | ⟨k, k1, k2, k3, k4⟩
      · rw [e3]; exact hi.next
      · exact Or.inr ⟨k1, k2, k3, k, k4⟩
  unfold Decay.add
  simp only [if_neg hnext]
  by_cases hwu : n.rel < ((shift * w : Nat) : Int)
  · rw [if_pos hwu]
    have hwin : winIdx w n < shift := (Nat.div_lt_iff_lt_mul hw).mpr (by omega)
    have hno : ∀ m ∈ ns ++ [n], tracked w shift m = false := by
      intro m hm
      obtain ⟨c1, c2, _⟩ := hb.born m hm
      have : m.rel ≤ n.rel := by
        rw [List.mem_append, List.mem_singleton] at hm
        rcases hm with hm | rfl
        · exact h2 m hm
        · omega
      have : bornIdx w m ≤ winIdx w n := Nat.div_le_div_right (by omega)
      unfold tracked
      simp only [decide_eq_false_iff_not]
      omega
    have hfe : ns.filter (tracked w shift) = [] := by
      rw [List.filter_eq_nil_iff]
      intro m hm
      rw [hno m (List.mem_append_left _ hm)]
      decide
    have hR0 : decayR w B shift ns = 0 := by unfold decayR; rw [hfe]; rfl
    have hk : ∃ k, 0 < k ∧ k ≤ shift ∧ s.next = ((k * w : Nat) : Int) := by
      rcases hi.next with e | ⟨_, _, _, k, k1, k2, e⟩
      · exact ⟨shift, by omega, Nat.le_refl _, by rw [e, hR0, show B + 0 + 1 = shift by omega]⟩
      · exact ⟨k, k1, k2, e⟩
    obtain ⟨k, k1, k2, e⟩ := hk
    have hlt : n.rel.toNat < shift * w := by omega
    obtain ⟨k', k3, k4, e'⟩ := skip_spec hw n.rel.toNat shift hlt (n.rel.toNat + 1) k k1 k2
      (by have : w ≤ k * w := Nat.le_mul_of_pos_left _ k1; omega) (by omega)
    rw [ecast] at e'
    rw [e, e', Res.bind_ok]
    exact ⟨_, rfl, hun (hno n (by simp)) _ rfl rfl (Or.inr ⟨k', hR0, by omega, hfe, k3, k4, rfl⟩)⟩
  · rw [if_neg hwu, ewi, ediv]
    by_cases hbn : bornIdx w n < shift
    · rw [if_pos hbn]
      refine ⟨_, rfl, hun ?_ _ rfl rfl (Or.inl rfl)⟩
      unfold tracked; simp; exact hbn
    · rw [if_neg hbn]
      have ht : tracked w shift n = true := by unfold tracked; simp; omega
      have hBw : B ≤ winIdx w n := by omega
      have hWw : winIdx w n = n.rel.toNat / w := rfl
      -- the loop
      have hfl : Decay.flush w (shift * w) n.rel (n.rel.toNat + 2) s =
          .ok (if winIdx w n ≤ B + decayR w B shift ns then { next := (((B + decayR w B shift ns + 1) * w : Nat) : Int), obj := s.obj, out := s.out }
          else { next := (((winIdx w n + 1) * w : Nat) : Int), obj := List.replicate (winIdx w n - B + 1) 0, out := s.out ++ s.obj :: (List.range (winIdx w n - B - decayR w B shift ns - 1)).map (fun i => List.replicate (decayR w B shift ns + 1 + i + 1) 0) }) := by
        have hlen : s.obj.length = decayR w B shift ns + 1 := by rw [hi.cur]; unfold decayRow; simp
        have base : ∀ fuel, n.rel.toNat + 1 ≤ fuel → Decay.flush w (shift * w) n.rel fuel { next := (((B + decayR w B shift ns + 1) * w : Nat) : Int), obj := s.obj, out := s.out } =
          .ok (if winIdx w n ≤ B + decayR w B shift ns then { next := (((B + decayR w B shift ns + 1) * w : Nat) : Int), obj := s.obj, out := s.out }
          else { next := (((winIdx w n + 1) * w : Nat) : Int), obj := List.replicate (winIdx w n - B + 1) 0, out := s.out ++ s.obj :: (List.range (winIdx w n - B - decayR w B shift ns - 1)).map (fun i => List.replicate (decayR w B shift ns + 1 + i + 1) 0) }) := by
          intro fuel hf
          have := decay_flush_spec hw B (warmup := shift * w) (Nat.mul_le_mul_right _ (by omega)) n.rel.toNat fuel (decayR w B shift ns) s.obj s.out hlen
            (by have : w ≤ (B + decayR w B shift ns + 1) * w := Nat.le_mul_of_pos_left _ (Nat.succ_pos _); omega) (by omega)
          rw [ecast] at this
          exact this
        rcases hi.next with e | ⟨hR0, hsp, _, k, k1, k2, e⟩
        · have es : s = { next := (((B + decayR w B shift ns + 1) * w : Nat) : Int), obj := s.obj, out := s.out } := by
            cases s; simp only at e; rw [e]
          conv => lhs; rw [es]
          exact base _ (by omega)
        · have hBs : B + 0 + 1 = shift := by omega
          by_cases hks : k = shift
          · subst hks
            have es : s = { next := (((B + decayR w B k ns + 1) * w : Nat) : Int), obj := s.obj, out := s.out } := by
              cases s; simp only at e; rw [e, hR0, hBs]
            conv => lhs; rw [es]
            exact base _ (by omega)
          · have hkw : k * w < shift * w := Nat.mul_lt_mul_of_pos_right (by omega) hw
            conv => lhs; unfold Decay.flush
            have c1 : s.next ≤ n.rel := by rw [e]; omega
            have c2 : s.next < ((shift * w : Nat) : Int) := by rw [e]; exact_mod_cast hkw
            rw [if_pos c1, if_pos c2]
            have := base (n.rel.toNat + 1) (by omega)
            rw [hR0, hBs] at this
            rw [hR0, hBs]
            exact this
      rw [hfl, Res.bind_ok]
      have hR : decayR w B shift (ns ++ [n]) = winIdx w n - B := by rw [decayR_append, ht]; rfl
      have hmax : ∀ m ∈ ns, tracked w shift m = true → winIdx w m ≤ B + decayR w B shift ns := fun m hm h => winIdx_le h1 hm h
      -- the loop leaves the rows of the requests so far, up to the window of this one
      have hst : ∃ s1 : Decay, (if winIdx w n ≤ B + decayR w B shift ns then ({ next := (((B + decayR w B shift ns + 1) * w : Nat) : Int), obj := s.obj, out := s.out } : Decay)
          else { next := (((winIdx w n + 1) * w : Nat) : Int), obj := List.replicate (winIdx w n - B + 1) 0, out := s.out ++ s.obj :: (List.range (winIdx w n - B - decayR w B shift ns - 1)).map (fun i => List.replicate (decayR w B shift ns + 1 + i + 1) 0) }) = s1 ∧
          s1.next = (((winIdx w n + 1) * w : Nat) : Int) ∧ s1.obj = decayRow w B shift ns (winIdx w n - B) ∧
          s1.out = (List.range (winIdx w n - B)).map (decayRow w B shift ns) := by
        refine ⟨_, rfl, ?_⟩
        by_cases hc : winIdx w n ≤ B + decayR w B shift ns
        · rw [if_pos hc]
          have hge : B + decayR w B shift ns ≤ winIdx w n := by
            unfold decayR
            cases hg : (ns.filter (tracked w shift)).getLast? with
            | none => simp; omega
            | some m =>
              have hm := List.mem_filter.mp (List.mem_of_getLast? hg)
              have : winIdx w m ≤ winIdx w n := Nat.div_le_div_right (by have := h2 m hm.1; omega)
              simp
              omega
          have hWe : winIdx w n = B + decayR w B shift ns := by omega
          have hWe' : winIdx w n - B = decayR w B shift ns := by omega
          rw [hWe']
          exact ⟨by rw [hWe], hi.cur, hi.rows⟩
        · rw [if_neg hc]
          refine ⟨rfl, ?_, ?_⟩
          · rw [decayRow_zero]
            intro m hm h
            have := hmax m hm h
            omega
          · show s.out ++ s.obj :: _ = _
            have e : winIdx w n - B = decayR w B shift ns + (1 + (winIdx w n - B - decayR w B shift ns - 1)) := by omega
            conv => rhs; rw [e, List.range_add, List.map_append]
            rw [hi.rows, hi.cur]
            congr 1
            rw [Nat.add_comm 1, List.range_succ_eq_map, List.map_cons, List.map_cons, List.map_map, List.map_map]
            congr 1
            apply List.map_congr_left
            intro i _
            simp only [Function.comp]
            rw [decayRow_zero]
            · congr 1; omega
            · intro m hm h
              have := hmax m hm h
              omega
      obtain ⟨s1, hs1, g1, g2, g3⟩ := hst
      rw [hs1]
      have hlen1 : bornIdx w n - shift < s1.obj.length := by
        rw [g2]; unfold decayRow; simp; omega
      simp only [if_pos hlen1]
      refine ⟨_, rfl, ?_, ?_, ?_⟩
      · have : (if n.first then { s1 with obj := s1.obj.modify (bornIdx w n - shift) (· + 1) } else s1).out = s1.out := by split <;> rfl
        rw [this, g3, hR]
        apply List.map_congr_left
        intro i hii
        rw [List.mem_range] at hii
        unfold decayRow
        apply List.map_congr_left
        intro j _
        have hc : ¬ (n.first = true ∧ winIdx w n = B + i ∧ bornIdx w n = shift + j) := by
          rintro ⟨_, h, _⟩
          omega
        rw [decayCell_append, if_neg hc, Nat.add_zero]
      · have : (if n.first then { s1 with obj := s1.obj.modify (bornIdx w n - shift) (· + 1) } else s1).obj = if n.first then s1.obj.modify (bornIdx w n - shift) (· + 1) else s1.obj := by split <;> rfl
        rw [this, g2, hR]
        apply List.ext_getElem?
        intro j
        unfold decayRow
        by_cases hf : n.first
        · rw [if_pos hf, List.getElem?_modify, List.getElem?_map, List.getElem?_map]
          by_cases hj : j < winIdx w n - B + 1
          · rw [List.getElem?_range hj]
            simp only [Option.map_some, Option.map_eq_map, Option.some.injEq]
            rw [decayCell_append]
            by_cases hjj : bornIdx w n - shift = j
            · rw [if_pos hjj, if_pos ⟨hf, by omega, by omega⟩]
            · rw [if_neg hjj, if_neg (by rintro ⟨_, _, h⟩; omega)]; rfl
          · rw [List.getElem?_eq_none (by simp; omega)]; rfl
        · rw [if_neg hf, List.getElem?_map, List.getElem?_map]
          congr 1
          funext k
          rw [decayCell_append, if_neg (by rintro ⟨h, _⟩; exact hf h)]
          rfl
      · left
        have : (if n.first then { s1 with obj := s1.obj.modify (bornIdx w n - shift) (· + 1) } else s1).next = s1.next := by split <;> rfl
        rw [this, g1, hR, show B + (winIdx w n - B) + 1 = winIdx w n + 1 by omega]

/-- The rows `PopularityDecay` writes. -/
theorem decay_fold {w shift : Nat} (hw : 0 < w) (ns : List Note) (hb : Born ns) (hne : ns ≠ []) :
    ∃ s, Decay.run w (shift * w) ns = .ok s ∧ DecayInv w shift (shift - 1) ns s := by
  unfold Decay.run
  induction ns using List.reverseRecOn with
  | nil => exact absurd rfl hne
  | append_singleton ns n ih =>
    obtain ⟨h1, h2, h3⟩ := hb.timed.left
    rw [List.foldl_append]
    by_cases he : ns = []
    · subst he
      rw [List.foldl_nil, List.foldl_cons, List.foldl_nil, Res.bind_ok]
      have e : Decay.init.add w (shift * w) n = Decay.add w (shift * w) { next := ((w : Nat) : Int), obj := [0], out := [] } n := by
        unfold Decay.add Decay.init
        have : ¬ ((w : Int) = -1) := by omega
        simp [h3 rfl, this]
      rw [e]
      apply decay_step hw rfl hb
      refine ⟨rfl, rfl, ?_⟩
      by_cases hs : shift = 0
      · left; subst hs; simp [decayR]
      · right; exact ⟨rfl, by omega, rfl, 1, by omega, by omega, by simp⟩
    · obtain ⟨s, e, hi⟩ := ih ⟨h1, fun m hm => hb.born m (List.mem_append_left _ hm)⟩ he
      rw [e, List.foldl_cons, List.foldl_nil, Res.bind_ok]
      exact decay_step hw rfl hb hi

end Verif.Analyzer
