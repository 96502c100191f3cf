import Verif.Props.Analyzer
/-!
# The trace analyzer's time series and distributions (libCacheSim/traceAnalyzer)

See Verif/Props/Analyzer.lean for the traces considered.  `chargedTo w k (timeline l)` are the requests
the code attributes to window `k`: each request goes to the window of the request before it.
-/

namespace Verif.Props
open Verif Verif.Analyzer Verif.Spec.TraceStats
set_option linter.unusedVariables false
set_option maxRecDepth 20000

/-! ## C60: request rates -/

/-- The rates: as many windows as have ended, each with the requests charged to it. -/
theorem C60_rates_Analyzer_partial {w : Nat} {l : List Rec} (h : Good w l) :
    ∃ s, ReqRate.run w (notes w l) = .ok s ∧ s.out.length = (finish l - start l).toNat / w ∧
      ∀ k, k < (finish l - start l).toNat / w → s.out[k]? = some { req := (chargedTo w k (timeline l)).length, byte := ((chargedTo w k (timeline l)).map (fun x => x.2.size)).sum, obj := (chargedTo w k (timeline l)).countP (fun x => decide (firstInWindow w (start l) x)), cold := (chargedTo w k (timeline l)).countP (fun x => decide (isFirst x)) } := by
  refine ⟨_, win_fold h.window Rate.zero Rate.zero Rate.count (notes w l) (notes_timed h) (notes_ne h), ?_, fun k hk => ?_⟩
  · rw [events_eq]
    unfold winOf
    simp only [List.length_map, List.length_range, List.getLast?_map, Option.map_map]
    rw [← timeline_last h]
    rfl
  · rw [events_eq]
    have hT : ((((timeline l).map (fun y => (y.1, noteOf w (start l) y.2))).getLast?).map (fun y => y.1)).getD 0 = (finish l - start l).toNat := by
      rw [← timeline_last h, List.getLast?_map, Option.map_map]; rfl
    unfold winOf
    simp only [hT]
    rw [List.getElem?_map, List.getElem?_range hk, Option.map_some, cell_eq, ite_self, rate_fold]
    have hl : (chargedTo w k (timeline l)).length < two32 :=
      Nat.lt_of_le_of_lt (chargedTo_length_le _ _ _) (by rw [timeline_length]; exact h.count)
    simp only [List.length_map, List.map_map, List.countP_map]
    have hby := chargedTo_bytes h k
    have e : (chargedTo w k (timeline l)).map ((fun n : Note => n.size) ∘ noteOf w (start l)) = (chargedTo w k (timeline l)).map (fun x => x.2.size) := rfl
    rw [e, Nat.mod_eq_of_lt hby, Nat.mod_eq_of_lt hl, Nat.mod_eq_of_lt (Nat.lt_of_le_of_lt List.countP_le_length hl),
      Nat.mod_eq_of_lt (Nat.lt_of_le_of_lt List.countP_le_length hl)]
    rfl

example : ((ReqRate.run 10 (notes 10 Analyzer_trace)).toOption.map (·.out)) = some [⟨4, 134, 3, 2⟩, ⟨2, 15, 2, 1⟩, ⟨2, 45, 2, 1⟩] := by decide +kernel

/-- In every reported window but the first, the request count is the number of requests in the window; in
the first it is one more. -/
theorem C60_requestCount_Analyzer_partial {w : Nat} {l : List Rec} (h : Good w l) (k : Nat)
    (hk : k < (finish l - start l).toNat / w) :
    ∃ s c, ReqRate.run w (notes w l) = .ok s ∧ s.out[k]? = some c ∧
      c.req = l.countP (fun r => decide (since (start l) r / w = k)) + if k = 0 then 1 else 0 := by
  obtain ⟨s, h1, _, h3⟩ := C60_rates_Analyzer_partial h
  exact ⟨s, _, h1, h3 k hk, chargedTo_length h k hk⟩

example : Analyzer_trace.countP (fun r => decide (since (start Analyzer_trace) r / 10 = 1)) = 2 := by decide +kernel

/-- The rate file: the counts divided by the window, rounded down. -/
theorem C60_rateFile_Analyzer_partial {w : Nat} {l : List Rec} (h : Good w l) :
    ∃ s, ReqRate.run w (notes w l) = .ok s ∧ (ReqRate.dump w s).length = (finish l - start l).toNat / w ∧
      ∀ (k : Nat) (c : Rate), s.out[k]? = some c → (ReqRate.dump w s)[k]? = some (⟨c.req / w, c.byte / w, c.obj / w, c.cold / w⟩ : Rate) := by
  obtain ⟨s, h1, h2, _⟩ := C60_rates_Analyzer_partial h
  refine ⟨s, h1, by unfold ReqRate.dump; rw [List.length_map, h2], fun k c hc => ?_⟩
  unfold ReqRate.dump
  rw [List.getElem?_map, hc]
  rfl

/-- The bytes (and objects, and first requests) of a window are those of other requests: a request is charged to the
window of the one before it. -/
theorem C60_rates_Analyzer_fails :
    Good 10 Analyzer_trace ∧ ((ReqRate.run 10 (notes 10 Analyzer_trace)).toOption.map (fun s => s.out.map (·.byte))) = some [134, 15, 45] ∧
      (List.range 4).map (fun k => ((Analyzer_trace.filter (fun r => decide (since (start Analyzer_trace) r / 10 = k))).map (·.size)).sum) = [90, 49, 54, 1] := by
  refine ⟨Analyzer_good, ?_, ?_⟩ <;> decide +kernel

/-- The last window is never reported, even when it is the only one. -/
theorem C60_lastWindow_Analyzer_fails :
    Good 10 [⟨0, 1, 1, 0, 1⟩, ⟨9, 2, 1, 0, 1⟩] ∧ ((ReqRate.run 10 (notes 10 [⟨0, 1, 1, 0, 1⟩, ⟨9, 2, 1, 0, 1⟩])).toOption.map (·.out)) = some [] := by
  refine ⟨?_, ?_⟩
  · constructor <;> decide
  · decide +kernel

/-! ## C61: sizes and reuse -/

/-- The size distribution weighted by requests and by objects: each size that occurs, with the number of
requests, and of objects whose first request has this size. -/
theorem C61_sizes_Analyzer_partial {w : Nat} {l : List Rec} (h : Good w l) (bucket : Nat → Nat) (hs : ∀ r ∈ l, r.size < 4294967296) :
    ∃ s, SizeStat.run bucket w (notes w l) = .ok s ∧ (s.reqCnt.map (·.1)).Nodup ∧ (s.objCnt.map (·.1)).Nodup ∧
      (∀ k c, (k, c) ∈ s.reqCnt ↔ 0 < c ∧ c = l.countP (fun r => decide (r.size = k))) ∧
      (∀ k c, (k, c) ∈ s.objCnt ↔ 0 < c ∧ c = (withPast l).countP (fun x => decide (isFirst x ∧ x.2.size = k))) := by
  have hlen : (notes w l).length < two32 := by rw [notes_length]; exact h.count
  refine ⟨_, size_fold h.window bucket (notes w l) (notes_timed h) (notes_ne h), bumps_nodup _, bumps_nodup _, fun k c => ?_, fun k c => ?_⟩
  · rw [bump_mem _ (by rw [List.length_map]; exact hlen)]
    have : ((notes w l).map (fun n => n.size % two32)).count k = l.countP (fun r => decide (r.size = k)) := by
      rw [List.count, List.countP_map]
      unfold notes
      rw [List.countP_map]
      conv => rhs; rw [← map_snd_withPast l, List.countP_map]
      apply List.countP_congr
      intro x hx
      have := hs x.2 (mem_of_withPast hx).1
      show (x.2.size % two32 == k) = true ↔ decide (x.2.size = k) = true
      rw [Nat.mod_eq_of_lt (show x.2.size < two32 from this)]
      simp
    rw [this]
  · rw [bump_mem _ (by rw [List.length_map]; exact Nat.lt_of_le_of_lt (List.length_filter_le _ _) hlen)]
    have : (((notes w l).filter (·.compulsory)).map (fun n => n.size % two32)).count k = (withPast l).countP (fun x => decide (isFirst x ∧ x.2.size = k)) := by
      rw [List.count, List.countP_map, List.countP_filter]
      unfold notes
      rw [List.countP_map]
      apply List.countP_congr
      intro x hx
      have := hs x.2 (mem_of_withPast hx).1
      show ((x.2.size % two32 == k) && decide (isFirst x)) = true ↔ decide (isFirst x ∧ x.2.size = k) = true
      rw [Nat.mod_eq_of_lt (show x.2.size < two32 from this)]
      simp [and_comm]
    rw [this]

example : ((SizeStat.run (fun n => n / 8) 10 (notes 10 Analyzer_trace)).toOption.map (fun s => (s.reqCnt, s.objCnt))) =
    some ([(40, 2), (10, 2), (44, 2), (5, 1), (1, 1)], [(40, 1), (10, 1), (5, 1), (1, 1)]) := by decide +kernel

/-- The size distribution over time: one row per window that has ended, counting the requests charged to it
(and those first to their object in their window) by size bucket. -/
theorem C61_sizeWindows_Analyzer_partial {w : Nat} {l : List Rec} (h : Good w l) (bucket : Nat → Nat) :
    ∃ s, SizeStat.run bucket w (notes w l) = .ok s ∧ s.win.out.length = (finish l - start l).toNat / w ∧
      ∀ k, k < (finish l - start l).toNat / w → ∃ row, s.win.out[k]? = some row ∧ ∀ b,
        row.req.getD b 0 = (chargedTo w k (timeline l)).countP (fun x => decide (bucket x.2.size = b)) ∧
        row.obj.getD b 0 = (chargedTo w k (timeline l)).countP (fun x => decide (firstInWindow w (start l) x) && decide (bucket x.2.size = b)) := by
  refine ⟨_, size_fold h.window bucket (notes w l) (notes_timed h) (notes_ne h), ?_, fun k hk => ?_⟩
  · rw [events_eq]
    unfold winOf
    simp only [List.length_map, List.length_range, List.getLast?_map, Option.map_map]
    rw [← timeline_last h]
    rfl
  · have hT : ((((timeline l).map (fun y => (y.1, noteOf w (start l) y.2))).getLast?).map (fun y => y.1)).getD 0 = (finish l - start l).toNat := by
      rw [← timeline_last h, List.getLast?_map, Option.map_map]; rfl
    rw [events_eq]
    unfold winOf
    simp only [hT]
    rw [List.getElem?_map, List.getElem?_range hk, Option.map_some, cell_eq]
    refine ⟨_, rfl, fun b => ?_⟩
    generalize hc0 : (if k = 0 then ({ req := [], obj := [] } : SizeWin) else { req := List.replicate 20 0, obj := List.replicate 20 0 }) = c0
    have hz : c0.req.getD b 0 = 0 ∧ c0.obj.getD b 0 = 0 ∧ (∀ x ∈ c0.req, x < two32) ∧ (∀ x ∈ c0.obj, x < two32) := by
      have hr : (List.replicate 20 0 : List Nat).getD b 0 = 0 := by
        rw [List.getD_eq_getElem?_getD, List.getElem?_replicate]
        split <;> rfl
      have hr2 : ∀ x ∈ (List.replicate 20 0 : List Nat), x < two32 := by
        intro x hx; rw [(List.mem_replicate.mp hx).2]; decide
      subst hc0
      split
      · exact ⟨rfl, rfl, by simp, by simp⟩
      · exact ⟨hr, hr, hr2, hr2⟩
    obtain ⟨z1, z2, z3, z4⟩ := hz
    obtain ⟨f1, f2⟩ := sizeWin_fold bucket ((chargedTo w k (timeline l)).map (noteOf w (start l))) c0 b
    obtain ⟨g1, g2⟩ := sizeWin_lt bucket ((chargedTo w k (timeline l)).map (noteOf w (start l))) c0 z3 z4
    have hl : (chargedTo w k (timeline l)).length < two32 :=
      Nat.lt_of_le_of_lt (chargedTo_length_le _ _ _) (by rw [timeline_length]; exact h.count)
    rw [z1, Nat.zero_add, Nat.mod_eq_of_lt (getD_lt g1 b), List.countP_map, Nat.mod_eq_of_lt (Nat.lt_of_le_of_lt List.countP_le_length hl)] at f1
    rw [z2, Nat.zero_add, Nat.mod_eq_of_lt (getD_lt g2 b), List.countP_map, Nat.mod_eq_of_lt (Nat.lt_of_le_of_lt List.countP_le_length hl)] at f2
    exact ⟨f1, f2⟩

example : ((SizeStat.run (fun n => n / 8) 10 (notes 10 Analyzer_trace)).toOption.map (fun s => s.win.out.map (fun r => r.req.take 7))) =
    some [[0, 1, 0, 0, 0, 3, 0], [1, 1, 0, 0, 0, 0, 0], [1, 0, 0, 0, 0, 1, 0]] := by decide +kernel

/-- The reuse distributions: the first requests under -1, and the others by the time since the object's
request before, in units of `gran` seconds, and by the bucket of the number of requests since. -/
theorem C61_reuse_Analyzer_partial {w gran : Nat} {l : List Rec} (h : Good w l) (hg : 0 < gran) (bucket : Nat → Nat) :
    ∃ s, ReuseStat.run gran bucket w (notes w l) = .ok s ∧ (s.rt.map (·.1)).Nodup ∧ (s.vt.map (·.1)).Nodup ∧
      (∀ c, (-1, c) ∈ s.rt ↔ 0 < c ∧ c = (objects l).length) ∧ (∀ c, (-1, c) ∈ s.vt ↔ 0 < c ∧ c = (objects l).length) ∧
      (∀ (k : Nat) c, ((k : Int), c) ∈ s.rt ↔ 0 < c ∧ c = (withPast l).countP (fun x => decide (¬ isFirst x ∧ gapTime x / gran = k))) ∧
      (∀ (k : Nat) c, ((k : Int), c) ∈ s.vt ↔ 0 < c ∧ c = (withPast l).countP (fun x => decide (¬ isFirst x ∧ bucket (gapReqs x) = k))) := by
  have hlen : (notes w l).length < two32 := by rw [notes_length]; exact h.count
  have hr : ∀ x ∈ withPast l, rKey gran (noteOf w (start l) x) = if isFirst x then -1 else ((gapTime x / gran : Nat) : Int) := by
    intro x hx
    unfold rKey
    rw [rSince_toNat]
    by_cases hf : isFirst x
    · rw [if_pos ((rSince_iff h hx).mpr hf), if_pos hf]
    · rw [if_neg (mt (rSince_iff h hx).mp hf), if_neg hf]
  have hv : ∀ x ∈ withPast l, vKey bucket (noteOf w (start l) x) = if isFirst x then -1 else ((bucket (gapReqs x) : Nat) : Int) := by
    intro x hx
    unfold vKey
    rw [vSince_toNat]
    by_cases hf : isFirst x
    · rw [if_pos ((rSince_iff h hx).mpr hf), if_pos hf]
    · rw [if_neg (mt (rSince_iff h hx).mp hf), if_neg hf]
  have hcold : ∀ (f : Note → Int) (g : (List Rec × Rec) → Nat), (∀ x ∈ withPast l, f (noteOf w (start l) x) = if isFirst x then -1 else ((g x : Nat) : Int)) →
      ((notes w l).map f).count (-1) = (objects l).length ∧ ∀ k : Nat, ((notes w l).map f).count (k : Int) = (withPast l).countP (fun x => decide (¬ isFirst x ∧ g x = k)) := by
    intro f g hf
    constructor
    · rw [← count_first, List.count, List.countP_map]
      unfold notes
      rw [List.countP_map]
      apply List.countP_congr
      intro x hx
      simp only [Function.comp, hf x hx]
      by_cases hi : isFirst x
      · simp [hi]
      · simp only [hi, if_false, decide_false, Bool.false_eq_true, iff_false, beq_iff_eq]
        omega
    · intro k
      rw [List.count, List.countP_map]
      unfold notes
      rw [List.countP_map]
      apply List.countP_congr
      intro x hx
      simp only [Function.comp, hf x hx]
      by_cases hi : isFirst x
      · simp only [hi, if_true, not_true, false_and, decide_false, Bool.false_eq_true, iff_false, beq_iff_eq]
        omega
      · simp only [hi, if_false, not_false_iff, true_and, beq_iff_eq, decide_eq_true_eq]
        omega
  obtain ⟨r1, r2⟩ := hcold _ _ hr
  obtain ⟨v1, v2⟩ := hcold _ _ hv
  refine ⟨_, reuse_fold h.window hg bucket (notes w l) (notes_timed h) (notes_ne h) (notes_first h), bumps_nodup _, bumps_nodup _, fun c => ?_, fun c => ?_, fun k c => ?_, fun k c => ?_⟩
  · rw [bump_mem _ (by rw [List.length_map]; exact hlen), r1]
  · rw [bump_mem _ (by rw [List.length_map]; exact hlen), v1]
  · rw [bump_mem _ (by rw [List.length_map]; exact hlen), r2]
  · rw [bump_mem _ (by rw [List.length_map]; exact hlen), v2]

example : ((ReuseStat.run 5 (fun n => n / 2) 10 (notes 10 Analyzer_trace)).toOption.map (fun s => (s.rt, s.vt))) =
    some ([(-1, 4), (0, 1), (1, 1), (4, 1), (3, 1)], [(-1, 4), (1, 2), (0, 1), (2, 1)]) := by decide +kernel

/-- The reuse distribution over time: one row per window that has ended before the last reuse, counting the
reuses charged to it (each to the window of the reuse before it). -/
theorem C61_reuseWindows_Analyzer_partial {w gran : Nat} {l : List Rec} (h : Good w l) (hg : 0 < gran) (bucket : Nat → Nat) :
    ∃ s, ReuseStat.run gran bucket w (notes w l) = .ok s ∧
      s.win.out.length = (((reuses l).getLast?).map (·.1)).getD 0 / w ∧
      ∀ k, k < s.win.out.length → ∃ row, s.win.out[k]? = some row ∧ ∀ b,
        row.rt.getD b 0 = (chargedTo w k (reuses l)).countP (fun x => decide (gapTime x / gran = b)) ∧
        row.vt.getD b 0 = (chargedTo w k (reuses l)).countP (fun x => decide (bucket (gapReqs x) = b)) := by
  have hev : ((notes w l).filter (fun n => decide (0 ≤ n.rSince))).map (fun n => (n.rel.toNat, n)) = (reuses l).map (fun y => (y.1, noteOf w (start l) y.2)) := by
    unfold reuses timeline notes
    rw [List.filter_map, List.filter_map, List.map_map, List.map_map]
    have : (withPast l).filter ((fun n => decide (0 ≤ n.rSince)) ∘ noteOf w (start l)) = (withPast l).filter ((fun y : Nat × (List Rec × Rec) => decide (¬ isFirst y.2)) ∘ fun x => (since (start l) x.2, x)) := by
      apply List.filter_congr
      intro x hx
      have := rSince_iff h hx
      simp only [Function.comp]
      rw [decide_eq_decide, ← this]
      omega
    rw [this]
    apply List.map_congr_left
    intro x _
    rfl
  have hlen : ∀ k, (chargedTo w k (reuses l)).length < two32 := by
    intro k
    refine Nat.lt_of_le_of_lt (chargedTo_length_le _ _ _) (Nat.lt_of_le_of_lt (List.length_filter_le _ _) ?_)
    rw [timeline_length]; exact h.count
  refine ⟨_, reuse_fold h.window hg bucket (notes w l) (notes_timed h) (notes_ne h) (notes_first h), ?_, ?_⟩
  · rw [hev]
    unfold winOf
    simp only [List.length_map, List.length_range, List.getLast?_map, Option.map_map]
    rfl
  · rw [hev]
    intro k hk
    unfold winOf at hk ⊢
    simp only [List.length_map, List.length_range] at hk
    simp only
    rw [List.getElem?_map, List.getElem?_range hk, Option.map_some, cell_eq, ite_self]
    refine ⟨_, rfl, fun b => ?_⟩
    obtain ⟨f1, f2⟩ := reuseWin_fold gran bucket ((chargedTo w k (reuses l)).map (noteOf w (start l))) (by rw [List.length_map]; exact hlen k) b
    rw [f1, f2, List.countP_map, List.countP_map]
    constructor
    · apply List.countP_congr
      intro x _
      simp only [Function.comp, rSince_toNat]
    · apply List.countP_congr
      intro x _
      simp only [Function.comp, vSince_toNat]

example : ((ReuseStat.run 5 (fun n => n / 2) 10 (notes 10 Analyzer_trace)).toOption.map (fun s => s.win.out)) =
    some [⟨[1, 1], [1, 1, 0]⟩, ⟨[0, 0, 0, 0, 1, 0], [0, 0, 1, 0]⟩] := by decide +kernel

/-- A reuse is not reported in the window it happens in: here the only reuse, in window 2, is reported in
window 0. -/
theorem C61_reuseWindows_Analyzer_fails :
    Good 10 [⟨0, 1, 1, 0, 1⟩, ⟨25, 1, 1, 0, 1⟩] ∧ ((ReuseStat.run 5 (fun n => n) 10 (notes 10 [⟨0, 1, 1, 0, 1⟩, ⟨25, 1, 1, 0, 1⟩])).toOption.map (fun s => s.win.out)) =
      some [⟨[0, 0, 0, 0, 0, 1, 0], [0, 1, 0]⟩, ⟨[], []⟩] := by
  refine ⟨?_, ?_⟩
  · constructor <;> decide
  · decide +kernel

/-- A reuse-time granularity of 0 divides by zero. -/
theorem C61_granularity_Analyzer_fails : ReuseStat.run 0 (fun n => n) 10 (notes 10 [⟨0, 1, 1, 0, 1⟩, ⟨25, 1, 1, 0, 1⟩]) = .error .divZero := rfl

end Verif.Props
