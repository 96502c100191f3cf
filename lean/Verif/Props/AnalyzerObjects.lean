import Verif.Props.AnalyzerWindows
/-!
# The trace analyzer's reports about single objects (libCacheSim/traceAnalyzer)

See Verif/Props/Analyzer.lean for the traces considered.
-/

namespace Verif.Props
open Verif Verif.Analyzer Verif.Spec.TraceStats
set_option linter.unusedVariables false
set_option maxRecDepth 20000

/-! ## C62: access pattern -/

/-- The file of request positions: one line per sampled object, in the order of the first requests, with the
positions of all its requests.  The order in which the hash map is walked does not matter. -/
theorem C62_positions_Analyzer_partial {w ratio : Nat} {l : List Rec} (h : Good w l) (hr : 0 < ratio) (hl : l.length ≤ 0xfffffff1)
    (m : List (Nat × List Nat)) (hm : m.Perm (Access.run ratio (notes w l)).vt) :
    (Access.dump { Access.run ratio (notes w l) with vt := m }).2 =
      ((objects l).filter (fun id => decide (id % ratio = 0))).map (fun id => (requestsTo l id).map (·.2)) := by
  obtain ⟨_, hv, _, _⟩ := access_fold ratio (notes w l) (notes_timed h) (by rw [notes_length]; exact hl) (fun n hn => ((notes_born h).born n hn).2.2)
  have hlines : (Access.run ratio (notes w l)).vt.map (·.2) = ((objects l).filter (fun id => decide (id % ratio = 0))).map (fun id => (requestsTo l id).map (·.2)) := by
    rw [hv, push_lines w l ratio (fun _ p => p)]
  unfold Access.dump
  simp only
  have hp : (sortBy (fun a b : List Nat => decide (a.headD 0 ≤ b.headD 0)) (m.map (·.2))).Perm (((objects l).filter (fun id => decide (id % ratio = 0))).map (fun id => (requestsTo l id).map (·.2))) := by
    rw [← hlines]
    exact (sortBy_perm _ _).trans (hm.map _)
  have hs : (sortBy (fun a b : List Nat => decide (a.headD 0 ≤ b.headD 0)) (m.map (·.2))).Pairwise (fun a b => a.headD 0 ≤ b.headD 0) := by
    have := sortBy_sorted (fun a b : List Nat => decide (a.headD 0 ≤ b.headD 0))
      (by intro a b c h1 h2; simp only [decide_eq_true_eq] at *; omega)
      (by intro a b; simp only [decide_eq_true_eq]; omega) (m.map (·.2))
    exact this.imp (by simp)
  have hhead : ∀ id, ((requestsTo l id).map (·.2)).headD 0 = firstPos l id := by
    intro id
    unfold firstPos
    cases requestsTo l id <;> rfl
  have hsl : (((objects l).filter (fun id => decide (id % ratio = 0))).map (fun id => (requestsTo l id).map (·.2))).Pairwise (fun a b => a.headD 0 < b.headD 0) := by
    rw [List.pairwise_map]
    refine ((firstPos_lt l).1.filter _).imp ?_
    intro a b hab
    rw [hhead, hhead]
    exact hab
  refine hp.eq_of_pairwise ?_ hs (hsl.imp (fun hab => Nat.le_of_lt hab))
  intro a b ha hb h1 h2
  have ha' := hp.mem_iff.mp ha
  -- two lines with the same first position are the same line
  have key : ∀ (L : List (List Nat)), L.Pairwise (fun a b => a.headD 0 < b.headD 0) → ∀ a ∈ L, ∀ b ∈ L, a.headD 0 = b.headD 0 → a = b := by
    intro L hL
    induction L with
    | nil => intro a ha; simp at ha
    | cons x L ih =>
      obtain ⟨p1, p2⟩ := List.pairwise_cons.mp hL
      intro a ha b hb e
      rw [List.mem_cons] at ha hb
      rcases ha with rfl | ha <;> rcases hb with rfl | hb
      · rfl
      · have := p1 b hb; omega
      · have := p1 a ha; omega
      · exact ih p2 a ha b hb e
  exact key _ hsl a ha' b hb (by omega)

example : (Access.dump (Access.run 1 (notes 10 Analyzer_trace))).2 = [[1, 3, 4, 7], [2, 6], [5], [8]] := by decide +kernel
example : (Access.dump (Access.run 2 (notes 10 Analyzer_trace))).2 = [[5], [8]] := by decide +kernel

/-- The file of request times: one line per sampled object, with the times of all its requests since the
start of the trace; the lines are sorted by the time of the first request. -/
theorem C62_times_Analyzer_partial {w ratio : Nat} {l : List Rec} (h : Good w l) (hr : 0 < ratio) (hl : l.length ≤ 0xfffffff1)
    (m : List (Nat × List Nat)) (hm : m.Perm (Access.run ratio (notes w l)).rt) :
    ((Access.dump { Access.run ratio (notes w l) with rt := m }).1).Perm (((objects l).filter (fun id => decide (id % ratio = 0))).map (fun id => (requestsTo l id).map (fun q => since (start l) q.1))) ∧
      ((Access.dump { Access.run ratio (notes w l) with rt := m }).1).Pairwise (fun a b => a.headD 0 ≤ b.headD 0) := by
  obtain ⟨hv, _, _, _⟩ := access_fold ratio (notes w l) (notes_timed h) (by rw [notes_length]; exact hl) (fun n hn => ((notes_born h).born n hn).2.2)
  have hlines : (Access.run ratio (notes w l)).rt.map (·.2) = ((objects l).filter (fun id => decide (id % ratio = 0))).map (fun id => (requestsTo l id).map (fun q => since (start l) q.1)) := by
    rw [hv]
    have e : ((notes w l).filter (fun n => decide (n.id % ratio = 0))).map (fun n => (n.id, n.rel.toNat)) = (((notes w l).zipIdx 1).filter (fun n => decide (n.1.id % ratio = 0))).map (fun n => (n.1.id, n.1.rel.toNat)) := by
      conv => lhs; rw [← List.zipIdx_map_fst 1 (notes w l)]
      rw [List.filter_map, List.map_map]
      rfl
    rw [e, push_lines w l ratio (fun t _ => t.toNat)]
    rfl
  unfold Access.dump
  simp only
  refine ⟨?_, ?_⟩
  · rw [← hlines]
    exact (sortBy_perm _ _).trans (hm.map _)
  · have := sortBy_sorted (fun a b : List Nat => decide (a.headD 0 ≤ b.headD 0))
      (by intro a b c h1 h2; simp only [decide_eq_true_eq] at *; omega)
      (by intro a b; simp only [decide_eq_true_eq]; omega) (m.map (·.2))
    exact this.imp (by simp)

example : (Access.dump (Access.run 1 (notes 10 Analyzer_trace))).1 = [[0, 3, 11, 26], [3, 25], [12], [34]] := by decide +kernel

/-! ## C63: popularity decay -/

/-- The file of the popularity decay: row `i` is about window `shift - 1 + i` (`shift` is the number of warm-up
windows), and its entry `j` is the number of objects created in window `shift + j` that are requested in it.
There are rows up to, not including, the window of the last request to an object created after the warm-up. -/
theorem C63_decay_Analyzer_partial {w shift : Nat} {l : List Rec} (h : Good w l) :
    ∃ s, Decay.run w (shift * w) (notes w l) = .ok s ∧
      s.out.length = ((((withPast l).filter (fun x => decide (shift ≤ since (start l) (creation x) / w))).getLast?).map (fun x => since (start l) x.2 / w - (shift - 1))).getD 0 ∧
      ∀ i, i < s.out.length → ∃ row, s.out[i]? = some row ∧ row.length = i + 1 ∧ ∀ j, j ≤ i →
        row[j]? = some ((withPast l).countP (fun x => decide (firstInWindow w (start l) x) && decide (since (start l) x.2 / w = shift - 1 + i) && decide (since (start l) (creation x) / w = shift + j))) := by
  obtain ⟨s, h1, h2⟩ := decay_fold (shift := shift) h.window (notes w l) (notes_born h) (notes_ne h)
  refine ⟨s, h1, ?_, fun i hi => ?_⟩
  · rw [h2.rows, List.length_map, List.length_range]
    unfold decayR notes
    rw [List.filter_map, List.getLast?_map, Option.map_map]
    rfl
  · have hi' : i < decayR w (shift - 1) shift (notes w l) := by
      rw [h2.rows, List.length_map, List.length_range] at hi; exact hi
    refine ⟨decayRow w (shift - 1) shift (notes w l) i, ?_, by unfold decayRow; simp, fun j hj => ?_⟩
    · rw [h2.rows, List.getElem?_map, List.getElem?_range hi', Option.map_some]
    · unfold decayRow
      rw [List.getElem?_map, List.getElem?_range (by omega), Option.map_some]
      unfold decayCell notes
      rw [List.countP_map]
      rfl

example : ((Decay.run 10 0 (notes 10 Analyzer_trace)).toOption.map (·.out)) = some [[2], [1, 1], [2, 0, 0]] := by decide +kernel
example : ((Decay.run 10 10 (notes 10 Analyzer_trace)).toOption.map (·.out)) = some [[0], [1, 0], [0, 0, 0]] := by decide +kernel

/-- The window of the last request has no row: requests in it are not reported. -/
theorem C63_decay_Analyzer_fails :
    Good 10 [⟨0, 1, 1, 0, 1⟩, ⟨5, 2, 1, 0, 1⟩] ∧ ((Decay.run 10 0 (notes 10 [⟨0, 1, 1, 0, 1⟩, ⟨5, 2, 1, 0, 1⟩])).toOption.map (·.out)) = some [] := by
  refine ⟨?_, ?_⟩
  · constructor <;> decide
  · decide +kernel

/-! ## C64: lifetimes, ages and size changes -/

/-- The lifetime files: among the objects first requested on the first day, how many have each lifetime, in
seconds (rounded down to tens, and then multiplied by 6) and in requests (rounded down to hundreds). -/
theorem C64_lifetime_Analyzer_partial {w : Nat} {l : List Rec} (h : Good w l) :
    (∀ x c, (x, c) ∈ (Life.run (notes w l)).dump.1 ↔
      0 < c ∧ c = ((objects l).filter (fun id => decide (firstAt l id < 86400))).countP (fun id => decide ((((lastAt l id - firstAt l id) / 10 * 60 : Nat) : Int) = x))) ∧
    (∀ x c, (x, c) ∈ (Life.run (notes w l)).dump.2 ↔
      0 < c ∧ c = ((objects l).filter (fun id => decide (firstAt l id < 86400))).countP (fun id => decide ((((lastPos l id - firstPos l id) / 100 * 100 : Nat) : Int) = x))) := by
  obtain ⟨b1, b2⟩ := good_bounds h
  have hfirst : ∀ id ∈ objects l, firstOf (fun x => x.1.rel) (notes w l) id = (firstAt l id : Int) ∧ lastOf (fun x => x.1.rel) (notes w l) id = (lastAt l id : Int) := by
    intro id _
    have hb : ∀ q ∈ requestsTo l id, ((since (start l) q.1 : Nat) : Int) = q.1.time - start l := by
      intro q hq
      have := b1 q.1 (mem_requestsTo hq).1
      unfold since
      omega
    unfold firstOf lastOf firstAt lastAt
    rw [← List.head?_map, ← List.getLast?_map, evs_requestsTo w l id (fun t _ => t), List.head?_map, List.getLast?_map]
    constructor
    · cases hh : (requestsTo l id).head? with
      | none => rfl
      | some q => exact (hb q (List.mem_of_mem_head? hh)).symm
    · cases hh : (requestsTo l id).getLast? with
      | none => rfl
      | some q => exact (hb q (List.mem_of_getLast? hh)).symm
  have hpos : ∀ id, firstOf (fun x => (x.2 : Int)) (notes w l) id = (firstPos l id : Int) ∧ lastOf (fun x => (x.2 : Int)) (notes w l) id = (lastPos l id : Int) := by
    intro id
    unfold firstOf lastOf firstPos lastPos
    rw [← List.head?_map, ← List.getLast?_map, evs_requestsTo w l id (fun _ p => (p : Int)), List.head?_map, List.getLast?_map]
    constructor
    · cases (requestsTo l id).head? <;> rfl
    · cases (requestsTo l id).getLast? <;> rfl
  have hday : dayOne (notes w l) = (objects l).filter (fun id => decide (firstAt l id < 86400)) := by
    unfold dayOne
    rw [ids_notes]
    apply List.filter_congr
    intro id hid
    rw [(hfirst id hid).1, decide_eq_decide]
    omega
  have hle : ∀ id ∈ objects l, firstAt l id ≤ lastAt l id ∧ firstPos l id ≤ lastPos l id := fun id hid => first_le_last h.sorted hid
  have hlen : ((objects l).filter (fun id => decide (firstAt l id < 86400))).length < two32 := by
    refine Nat.lt_of_le_of_lt (List.length_filter_le _ _) ?_
    rw [← count_first]
    refine Nat.lt_of_le_of_lt List.countP_le_length ?_
    rw [length_withPast]
    exact h.count
  have hgen : ∀ (f : Note × Nat → Int) (a b : Nat → Nat) (d m : Nat), (∀ id ∈ objects l, firstOf f (notes w l) id = (a id : Int) ∧ lastOf f (notes w l) id = (b id : Int) ∧ a id ≤ b id) →
      ∀ x c, (x, c) ∈ lifeCounts (d : Int) (m : Int) (lifeList f (notes w l)) ↔
        0 < c ∧ c = ((objects l).filter (fun id => decide (firstAt l id < 86400))).countP (fun id => decide ((((b id - a id) / d * m : Nat) : Int) = x)) := by
    intro f a b d m hf x c
    rw [lifeCounts_eq, bump_mem]
    · have : ((lifeList f (notes w l)).map (fun p => Int.tdiv (p.2.2 - p.2.1) (d : Int) * (m : Int))).count x = ((objects l).filter (fun id => decide (firstAt l id < 86400))).countP (fun id => decide ((((b id - a id) / d * m : Nat) : Int) = x)) := by
        unfold lifeList
        rw [hday, List.map_map, List.count, List.countP_map]
        apply List.countP_congr
        intro id hid
        obtain ⟨f1, f2, f3⟩ := hf id (List.mem_filter.mp hid).1
        simp only [Function.comp, f1, f2]
        have e : ((b id : Nat) : Int) - (a id : Nat) = ((b id - a id : Nat) : Int) := by omega
        rw [e, ← Int.ofNat_tdiv, ← Int.natCast_mul]
        simp
      rw [this]
    · unfold lifeList
      rw [hday, List.length_map, List.length_map]
      exact hlen
  rw [life_fold _ (notes_timed h)]
  constructor
  · exact hgen _ (firstAt l) (lastAt l) 10 60 (fun id hid => ⟨(hfirst id hid).1, (hfirst id hid).2, (hle id hid).1⟩)
  · exact hgen _ (firstPos l) (lastPos l) 100 100 (fun id hid => ⟨(hpos id).1, (hpos id).2, (hle id hid).2⟩)

example : (Life.run (notes 10 Analyzer_trace)).dump = ([(120, 2), (0, 2)], [(0, 4)]) := by decide +kernel

/-- A lifetime of 26 seconds is printed as 120. -/
theorem C64_lifetime_Analyzer_fails :
    Good 10 Analyzer_trace ∧ lastAt Analyzer_trace 7 - firstAt Analyzer_trace 7 = 26 ∧
      ∀ x c, (x, c) ∈ (Life.run (notes 10 Analyzer_trace)).dump.1 → x = 0 ∨ x = 120 := by
  refine ⟨Analyzer_good, by decide +kernel, ?_⟩
  intro x c hx
  have e : (Life.run (notes 10 Analyzer_trace)).dump.1 = [(120, 2), (0, 2)] := by decide +kernel
  rw [e] at hx
  simp at hx
  omega

/-- The access ages: for the requests to objects created after the warm-up, how many have which access age (time
since the object's request before, in windows) and which age (time since its first request, in windows).  A first request has
access age 0, or -1 if the window is one second. -/
theorem C64_ages_Analyzer_partial {w warmup : Nat} {l : List Rec} (h : Good w l) :
    ((ProbAtAge.run w warmup (notes w l)).map (·.1)).Nodup ∧ ∀ (a b : Int) (c : Nat), ((a, b), c) ∈ ProbAtAge.run w warmup (notes w l) ↔
      0 < c ∧ c = (withPast l).countP (fun x => decide (warmup ≤ since (start l) (creation x)) &&
        decide (a = if isFirst x then (if w = 1 then -1 else 0) else ((gapTime x / w : Nat) : Int)) && decide (b = (((since (start l) x.2 - since (start l) (creation x)) / w : Nat) : Int))) := by
  rw [age_fold]
  refine ⟨bumps_nodup _, fun a b c => ?_⟩
  rw [bump_mem]
  · have iff_of : ∀ X Y : Nat, X = Y → ((0 < c ∧ c = X) ↔ (0 < c ∧ c = Y)) := by intro X Y e; rw [e]
    apply iff_of
    · unfold List.count
      rw [List.countP_map, List.countP_filter]
      unfold notes
      rw [List.countP_map]
      apply List.countP_congr
      intro x hx
      have hb := (notes_born h).born (noteOf w (start l) x) (List.mem_map.mpr ⟨x, hx, rfl⟩)
      have hcr : ((since (start l) (creation x) : Nat) : Int) = (noteOf w (start l) x).createR := by
        show _ = (creation x).time - start l
        have h0 : 0 ≤ (creation x).time - start l := hb.1
        unfold since; omega
      have hrel : ((since (start l) x.2 : Nat) : Int) = (noteOf w (start l) x).rel := by
        show _ = x.2.time - start l
        have h0 : 0 ≤ x.2.time - start l := Int.le_trans hb.1 hb.2.1
        unfold since; omega
      have hw := h.window
      have hrs : Int.tdiv (noteOf w (start l) x).rSince w = if isFirst x then (if w = 1 then -1 else 0) else ((gapTime x / w : Nat) : Int) := by
        by_cases hf : isFirst x
        · rw [if_pos hf]
          have e : (noteOf w (start l) x).rSince = -1 := by
            show ((previous x).map (fun q => x.2.time - q.1.time)).getD (-1) = -1
            rw [(isFirst_iff x).mp hf]; rfl
          rw [e, Int.neg_tdiv]
          by_cases hw1 : w = 1
          · subst hw1; rfl
          · rw [if_neg hw1]
            have : Int.tdiv 1 (w : Int) = 0 := by
              rw [show (1 : Int) = ((1 : Nat) : Int) from rfl, ← Int.ofNat_tdiv, Nat.div_eq_of_lt (by omega)]
              rfl
            rw [this]; rfl
        · rw [if_neg hf]
          have h0 : ¬ (noteOf w (start l) x).rSince < 0 := mt (rSince_iff h hx).mp hf
          have e : (noteOf w (start l) x).rSince = ((gapTime x : Nat) : Int) := by
            have := rSince_toNat (w := w) (l := l) x
            omega
          rw [e, ← Int.ofNat_tdiv]
      have hag : Int.tdiv ((noteOf w (start l) x).rel - (noteOf w (start l) x).createR) w = (((since (start l) x.2 - since (start l) (creation x)) / w : Nat) : Int) := by
        rw [← hrel, ← hcr]
        have hle : since (start l) (creation x) ≤ since (start l) x.2 := by have := hb.2.1; omega
        rw [show ((since (start l) x.2 : Nat) : Int) - ((since (start l) (creation x) : Nat) : Int) = ((since (start l) x.2 - since (start l) (creation x) : Nat) : Int) by omega, ← Int.ofNat_tdiv]
      simp only [Function.comp, hrs, hag, Bool.and_eq_true, Bool.not_eq_true', decide_eq_false_iff_not, decide_eq_true_eq, beq_iff_eq, Prod.mk.injEq]
      rw [← hrel, ← hcr]
      have hle : since (start l) (creation x) ≤ since (start l) x.2 := by have := hb.2.1; omega
      constructor
      · rintro ⟨⟨e1, e2⟩, e3⟩; exact ⟨⟨by omega, e1.symm⟩, e2.symm⟩
      · rintro ⟨⟨e1, e2⟩, e3⟩; exact ⟨⟨e2.symm, e3.symm⟩, by omega⟩
  · rw [List.length_map]
    refine Nat.lt_of_le_of_lt (List.length_filter_le _ _) ?_
    rw [notes_length]
    exact h.count

example : ProbAtAge.run 10 0 (notes 10 Analyzer_trace) = [((0, 0), 5), ((0, 1), 1), ((2, 2), 1), ((1, 2), 1)] := by decide +kernel

/-- First requests are counted as requests that follow the one before at once: a trace without any reuse gets the
same entry as one with a reuse. -/
theorem C64_ages_Analyzer_fails :
    ProbAtAge.run 10 0 (notes 10 [⟨0, 1, 1, 0, 1⟩, ⟨1, 2, 1, 0, 1⟩]) = [((0, 0), 2)] ∧
      ProbAtAge.run 10 0 (notes 10 [⟨0, 1, 1, 0, 1⟩, ⟨1, 1, 1, 0, 1⟩]) = [((0, 0), 2)] := by
  refine ⟨?_, ?_⟩ <;> decide +kernel

/-- The size-change histogram counts every overwrite (a write to an object requested before) in the bin of its
change of size. -/
theorem C64_sizeChange_Analyzer_partial {w : Nat} {l : List Rec} (h : Good w l) (hs : ∀ r ∈ l, r.size < 4294967296) :
    (SizeChange.run (notes w l)).total = l.length ∧ (SizeChange.run (notes w l)).abs.length = 33 ∧
      ∀ b, b < 33 → (SizeChange.run (notes w l)).abs[b]? = some ((withPast l).countP (fun x =>
        decide (isWrite x.2 ∧ ∃ q, previous x = some q ∧ absPos ((x.2.size : Int) - q.1.size) = b))) := by
  obtain ⟨h1, h2, h3⟩ := change_fold (notes w l) (by rw [notes_length]; have := h.count; unfold two64; omega)
  refine ⟨by rw [h1, notes_length], h2, fun b hb => ?_⟩
  rw [h3 b hb]
  congr 1
  unfold changes notes
  rw [List.countP_map, List.countP_filter, List.countP_map]
  apply List.countP_congr
  intro x hx
  simp only [Function.comp, Bool.and_eq_true, decide_eq_true_eq]
  show absPos ((x.2.size : Int) - ((previous x).map (fun q => ((q.1.size % two32 : Nat) : Int))).getD (-1)) = b ∧ decide (¬ isFirst x ∧ (x.2.op = opSet ∨ x.2.op = opReplace ∨ x.2.op = opCas)) = true ↔ _
  rw [decide_eq_true_eq, isFirst_iff]
  cases hp : previous x with
  | none => simp
  | some q =>
    have hq := hs q.1 ((mem_of_withPast hx).2 q.1 (previous_mem hp).1)
    have e : q.1.size % two32 = q.1.size := Nat.mod_eq_of_lt hq
    simp only [Option.map_some, Option.getD_some, e, Option.some.injEq, exists_eq_left', reduceCtorEq, not_false_iff, true_and]
    constructor
    · rintro ⟨a, c⟩; exact ⟨c, a⟩
    · rintro ⟨c, a⟩; exact ⟨a, c⟩

/-- The histogram of relative changes counts every overwrite in the bin the code computes from the exact quotient
of the change and the size before (see `C64_relativeChange_Analyzer_fails` for the bins). -/
theorem C64_relativeCount_Analyzer_partial {w : Nat} {l : List Rec} (h : Good w l) (hs : ∀ r ∈ l, r.size < 4294967296) :
    (SizeChange.run (notes w l)).rel.length = 29 ∧
      ∀ b, b < 29 → (SizeChange.run (notes w l)).rel[b]? = some ((withPast l).countP (fun x =>
        decide (isWrite x.2 ∧ ∃ q, previous x = some q ∧ relPos ((((x.2.size : Int) - q.1.size : Int) : Rat) / ((q.1.size : Int) : Rat)) = b))) := by
  obtain ⟨h2, h3⟩ := change_rel (notes w l) (by rw [notes_length]; have := h.count; unfold two64; omega)
  refine ⟨h2, fun b hb => ?_⟩
  rw [h3 b hb]
  congr 1
  unfold relChanges notes
  rw [List.countP_map, List.countP_filter, List.countP_map]
  apply List.countP_congr
  intro x hx
  simp only [Function.comp, Bool.and_eq_true, decide_eq_true_eq]
  show relPos ((((x.2.size : Int) - ((previous x).map (fun q => ((q.1.size % two32 : Nat) : Int))).getD (-1) : Int) : Rat) / ((((previous x).map (fun q => ((q.1.size % two32 : Nat) : Int))).getD (-1) : Int) : Rat)) = b ∧ decide (¬ isFirst x ∧ (x.2.op = opSet ∨ x.2.op = opReplace ∨ x.2.op = opCas)) = true ↔ _
  rw [decide_eq_true_eq, isFirst_iff]
  cases hp : previous x with
  | none => simp
  | some q =>
    have hq := hs q.1 ((mem_of_withPast hx).2 q.1 (previous_mem hp).1)
    have e : q.1.size % two32 = q.1.size := Nat.mod_eq_of_lt hq
    simp only [Option.map_some, Option.getD_some, e, Option.some.injEq, exists_eq_left', reduceCtorEq, not_false_iff, true_and]
    constructor
    · rintro ⟨a, c⟩; exact ⟨c, a⟩
    · rintro ⟨c, a⟩; exact ⟨a, c⟩

example : (withPast [⟨0, 1, 100, 0, opSet⟩, ⟨1, 1, 103, 0, opSet⟩]).countP (fun x => decide (isWrite x.2 ∧ ∃ q, previous x = some q ∧ relPos ((((x.2.size : Int) - q.1.size : Int) : Rat) / ((q.1.size : Int) : Rat)) = 3)) = 1 := by decide +kernel

/-- The bins are labelled correctly: a change whose bin is not one of the outermost two has the sign of the label,
and an amount at least that of the label and less than twice that. -/
theorem C64_sizeChangeLabels_Analyzer (d : Int) :
    ∃ lab, absLabels[absPos d]? = some lab ∧ (d = 0 → lab = 0) ∧
      (0 < d → 0 < lab ∧ lab ≤ d ∧ (d < 32768 → d < 2 * lab)) ∧ (d < 0 → lab < 0 ∧ d ≤ lab ∧ (-32768 < d → 2 * lab < d)) :=
  absPos_label d

example : absPos 5 = 19 ∧ absLabels[19]? = some 4 := by
  refine ⟨?_, rfl⟩
  unfold absPos; rw [if_neg (by decide)]
  have e : bitLen 5 = 3 := by
    rw [bitLen, if_neg (by decide), show 5 / 2 = 2 from rfl, bitLen, if_neg (by decide), show 2 / 2 = 1 from rfl, bitLen, if_neg (by decide), show 1 / 2 = 0 from rfl, bitLen, if_pos rfl]
  simp [e]

/-- The bins of the relative change are not: growth by 3 percent goes to a bin labelled with a shrink, and every shrink, however
large, to the bin labelled as a growth by a ten-thousandth. -/
theorem C64_relativeChange_Analyzer_fails :
    relLabels[relPos (3 / 100)]? = some (-(5 / 100)) ∧ ∀ c : Rat, c ≤ -(1 / 100000) → relLabels[relPos c]? = some (1 / 10000) := by
  refine ⟨by decide +kernel, fun c hc => ?_⟩
  have lt_of_le : ∀ {a b c : Rat}, a ≤ b → b < c → a < c := by
    intro a b c h1 h2
    exact Rat.not_le.mp (fun h => Rat.not_le.mpr h2 (Rat.le_trans h h1))
  have h1 : ¬ (c < 1 / 100000 ∧ c > -(1 / 100000)) := by
    rintro ⟨_, h⟩
    exact absurd hc (Rat.not_le.mpr h)
  have hneg : c < 1 / 10000 := lt_of_le hc (by decide +kernel)
  have h2 : ¬ c > 0 := by
    intro h
    exact absurd (lt_of_le hc (by decide +kernel : -(1 / 100000 : Rat) < 0)) (Rat.not_lt.mpr (Rat.le_of_lt h))
  have h3 : relBounds.findIdx (fun b => decide (c < b)) = 0 := by
    unfold relBounds
    rw [List.findIdx_cons, decide_eq_true hneg]
    rfl
  unfold relPos
  rw [if_neg h1]
  simp only [h3, if_neg h2]
  rfl

end Verif.Props
