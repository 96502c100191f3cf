import Verif.Proof.FutureReuse

/-!
# C95: the future-reuse table of the trace analyzer
-/

namespace Verif.Analyzer.FutureReuse

open Verif Verif.FutureReuseSpec

/-- The bins of the table by label: up to 3600 seconds a bin for each second, from there on bins of five seconds (the first
without its first second, which has its own). -/
def Bin (label a b : Int) : Prop :=
  (0 ≤ label ∧ label ≤ 3600 ∧ a = label ∧ b = label + 1) ∨ (3600 ≤ label ∧ label < 80 * 86400 ∧ label % 5 = 0 ∧ a = max label 3601 ∧ b = label + 5)

/-- The table has a line for each bin of ages with a request to an object first requested in the day after the
warm-up, and no other.  The line gives, separately for the requests with and without a later one, their number and the sum of
how often their objects had been requested before.  The sums of the access ages are not as they should be, but 0. -/
theorem C95_table_FutureReuse_partial {warmup : Int} {l : List Look} (hg : Good l) (hr : Recent warmup l) :
    ∃ s, run warmup l = .ok s ∧ ∀ label c, (label, c) ∈ s.dump ↔
      ∃ a b, Bin label a b ∧ aged warmup a b l ≠ [] ∧
        c.reuse = (reused (aged warmup a b l)).length ∧ c.stop = (stopped (aged warmup a b l)).length ∧
        c.reuseFreq = hits (reused (aged warmup a b l)) ∧ c.stopFreq = hits (stopped (aged warmup a b l)) ∧
        c.reuseAge = 0 ∧ c.stopAge = 0 := by
  obtain ⟨s, h1, h2⟩ := run_spec hg hr
  refine ⟨s, h1, fun label c => ?_⟩
  have hcell : ∀ p, s.cells p = cellOf (atPos warmup l p) := h2.cells
  have hsmall : ∀ p, (atPos warmup l p).length < 2147483648 := fun p => Nat.lt_of_le_of_lt (atPos_length _ _ _) hg.short
  unfold State.dump
  rw [List.mem_filterMap]
  constructor
  · rintro ⟨p, hp, he⟩
    have hp' : (p : Int) < arraySize := by
      have := List.mem_range.mp hp
      unfold arraySize maxTime gran fine at *; omega
    by_cases hl : timeOf p = -1
    · rw [if_pos hl] at he; cases he
    · rw [if_neg hl] at he
      split at he
      · cases he
      · rename_i hne
        obtain ⟨rfl, rfl⟩ := Prod.mk.inj (Option.some.inj he)
        rw [hcell, cellOf_pos (hsmall p)] at hne
        have fin : ∀ a b, atPos warmup l p = aged warmup a b l → Bin (timeOf p) a b → ∃ a b, Bin (timeOf p) a b ∧ aged warmup a b l ≠ [] ∧
            (s.cells p).reuse = (reused (aged warmup a b l)).length ∧ (s.cells p).stop = (stopped (aged warmup a b l)).length ∧
            (s.cells p).reuseFreq = hits (reused (aged warmup a b l)) ∧ (s.cells p).stopFreq = hits (stopped (aged warmup a b l)) ∧
            (s.cells p).reuseAge = 0 ∧ (s.cells p).stopAge = 0 := by
          intro a b e hb
          refine ⟨a, b, hb, by rw [← e]; exact hne, ?_⟩
          rw [hcell p, e]
          exact ⟨rfl, rfl, rfl, rfl, rfl, rfl⟩
        rcases label_cases p hp' hl with ⟨h3, h4, h5⟩ | ⟨h3, h4, h5, h6, h7⟩
        · exact fin _ _ (atPos_aged hg p _ _ h5) (Or.inl ⟨by omega, by omega, rfl, rfl⟩)
        · exact fin _ _ (atPos_aged hg p _ _ h7) (Or.inr ⟨h3, h6, by omega, rfl, rfl⟩)
  · rintro ⟨a, b, hb, hne, hc⟩
    have fin : ∀ p : Nat, (p : Int) < arraySize → timeOf p = label → label ≠ -1 → atPos warmup l p = aged warmup a b l →
        ∃ p ∈ List.range arraySize.toNat, (if timeOf p = -1 then none else if ((s.cells p).reuse + (s.cells p).stop) % two32 = 0 then none else some (timeOf p, s.cells p)) = some (label, c) := by
      intro p hp ht hl e
      refine ⟨p, List.mem_range.mpr (by omega), ?_⟩
      rw [if_neg (by omega), if_neg (by rw [hcell, cellOf_pos (hsmall p), e]; exact hne), ht, hcell, e]
      obtain ⟨c1, c2, c3, c4, c5, c6⟩ := c
      obtain ⟨e1, e2, e3, e4, e5, e6⟩ := hc
      simp only at e1 e2 e3 e4 e5 e6
      rw [e1, e2, e3, e4, e5, e6]
      rfl
    rcases hb with ⟨h3, h4, ha, hb⟩ | ⟨h3, h4, h5, ha, hb⟩
    · have hcast : ((label.toNat : Nat) : Int) = label := by omega
      have ht : timeOf ((label.toNat : Nat) : Int) = label := by
        rw [hcast]; unfold timeOf fine; rw [if_neg (by omega)]
      refine fin label.toNat (by unfold arraySize maxTime gran fine; omega) ht (by omega) (atPos_aged hg _ _ _ ?_)
      intro t ht
      rw [ha, hb]
      unfold posOf fine gran
      split <;> omega
    · have hcast : ((3600 + label.toNat / 5 : Nat) : Int) = 3600 + label / 5 := by omega
      have hp : ((3600 + label.toNat / 5 : Nat) : Int) < arraySize := by unfold arraySize maxTime gran fine; omega
      have ht : timeOf ((3600 + label.toNat / 5 : Nat) : Int) = label := by
        rw [hcast]; unfold timeOf fine gran; rw [if_pos (by omega), if_neg (by omega)]; omega
      refine fin (3600 + label.toNat / 5) hp ht (by omega) (atPos_aged hg _ _ _ ?_)
      intro t ht0
      rw [ha, hb]
      unfold posOf fine gran
      split <;> omega

/-- Requests of four objects: object 1 is from before the warm-up of 10 seconds. -/
def sample : List Look :=
  [⟨0, 1, 3⟩, ⟨12, 2, 2⟩, ⟨15, 2, 4⟩, ⟨15, 1, -1⟩, ⟨3650, 2, -1⟩, ⟨3660, 3, -1⟩, ⟨90000, 4, -1⟩]

theorem sample_good : Good sample := by constructor <;> decide

theorem sample_recent : Recent 10 sample := by unfold Recent; decide

example : (run 10 sample).toOption.map (fun s => (s.cells 0, s.cells 3, s.cells (3600 + 727))) =
    some (⟨1, 1, 0, 0, 0, 0⟩, ⟨1, 0, 0, 1, 0, 0⟩, ⟨0, 1, 0, 0, 0, 2⟩) := by decide +kernel

example : aged 10 3635 3640 sample ≠ [] ∧ (stopped (aged 10 3635 3640 sample)).length = 1 ∧ hits (stopped (aged 10 3635 3640 sample)) = 2 := by decide

/-- The lines are in the order of their labels, and only the label 3600 can occur twice. -/
theorem C95_order_FutureReuse (s : State) : s.dump.Pairwise (fun x y => x.1 < y.1 ∨ (x.1 = 3600 ∧ y.1 = 3600)) := by
  unfold State.dump
  rw [List.pairwise_filterMap]
  refine (List.pairwise_lt_range).imp ?_
  intro p q hpq x hx y hy
  have get : ∀ {p : Nat} {x : Int × Cell}, (if timeOf p = -1 then none else if ((s.cells p).reuse + (s.cells p).stop) % two32 = 0 then none else some (timeOf p, s.cells p)) = some x →
      timeOf p ≠ -1 ∧ x.1 = timeOf p := by
    intro p x h
    by_cases hl : timeOf p = -1
    · rw [if_pos hl] at h; cases h
    · rw [if_neg hl] at h
      split at h
      · cases h
      · exact ⟨hl, by rw [← Option.some.inj h]⟩
  obtain ⟨h1, h2⟩ := get hx
  obtain ⟨h3, h4⟩ := get hy
  rw [h2, h4]
  unfold timeOf fine gran at *
  split at h1 <;> split at h3 <;> try split at h1
  all_goals (try split at h3)
  all_goals simp_all <;> omega

example : (run 0 [⟨0, 1, -1⟩, ⟨3, 2, 3⟩, ⟨7, 2, -1⟩]).toOption.map (fun s => ([0, 4].map (fun p : Nat => (timeOf p, (s.cells p).stop)))) = some [(0, 1), (4, 1)] := by
  decide +kernel

/-- The sums of access ages are always 0, for every trace: the time of the last request is overwritten with the
time of this one before the difference is taken.  In the trace here object 2 is requested 3 seconds after its request
before. -/
theorem C95_accessAge_fails_FutureReuse :
    Good sample ∧ Recent 10 sample ∧ ((reused (aged 10 3 4 sample)).map accessAge).sum = 3 ∧
      ∀ s, run 10 sample = .ok s → ∀ x ∈ s.dump, x.2.reuseAge = 0 := by
  refine ⟨sample_good, sample_recent, by decide, fun s hs x hx => ?_⟩
  obtain ⟨s', h1, h2⟩ := C95_table_FutureReuse_partial sample_good sample_recent
  rw [hs] at h1
  obtain rfl := Except.ok.inj h1
  obtain ⟨a, b, _, _, _, _, _, _, h, _⟩ := (h2 x.1 x.2).mp hx
  exact h

/-- Two lines are labelled 3600: one for the age of 3600 seconds, one for 3601 to 3604 seconds. -/
theorem C95_labels_fails_FutureReuse :
    (posOf 3600 ≠ posOf 3601) ∧ timeOf (posOf 3600) = 3600 ∧ timeOf (posOf 3601) = 3600 ∧
      ∃ s, run 0 [⟨0, 1, 1⟩, ⟨3600, 1, 2⟩, ⟨3601, 1, -1⟩] = .ok s ∧ (3600, ⟨1, 0, 0, 1, 0, 0⟩) ∈ s.dump ∧ (3600, ⟨0, 1, 0, 0, 0, 2⟩) ∈ s.dump := by
  refine ⟨by decide, by decide, by decide, ?_⟩
  have hg : Good [⟨0, 1, 1⟩, ⟨3600, 1, 2⟩, ⟨3601, 1, -1⟩] := by constructor <;> decide
  have hr : Recent 0 [⟨0, 1, 1⟩, ⟨3600, 1, 2⟩, ⟨3601, 1, -1⟩] := by unfold Recent; decide
  obtain ⟨s, h1, h2⟩ := C95_table_FutureReuse_partial hg hr
  refine ⟨s, h1, (h2 _ _).mpr ⟨3600, 3601, Or.inl ⟨by omega, by omega, rfl, rfl⟩, by decide⟩, (h2 _ _).mpr ⟨3601, 3605, Or.inr ⟨by omega, by omega, by omega, rfl, rfl⟩, by decide⟩⟩

/-- A trace without the times of the next requests stops the analyzer at the first request after the warm-up to an object
not requested during it. -/
theorem C95_noNext_fails_FutureReuse (warmup : Int) (l : List Look) (r : Look) (s : State) (h : run warmup l = .ok s)
    (hw : warmup ≤ r.time) (hn : r.id ∉ s.warm) (hnext : r.next = -2) : run warmup (l ++ [r]) = .error .assertFail := by
  rw [run_append, h]
  show s.add warmup r = _
  unfold State.add
  rw [if_neg (by omega), if_neg hn, if_pos hnext]

example : run 10 [⟨0, 1, -2⟩, ⟨10, 2, -2⟩] = .error .assertFail :=
  C95_noNext_fails_FutureReuse 10 [⟨0, 1, -2⟩] ⟨10, 2, -2⟩ _ rfl (by decide) (by decide) rfl

/-- So does a request 80 days after the first one to the object. -/
theorem C95_eightyDays_fails_FutureReuse :
    Good [⟨0, 1, 1⟩, ⟨6912000, 1, -1⟩] ∧ run 0 [⟨0, 1, 1⟩, ⟨6912000, 1, -1⟩] = .error .assertFail := by
  exact ⟨by constructor <;> decide, rfl⟩

end Verif.Analyzer.FutureReuse
