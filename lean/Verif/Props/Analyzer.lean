import Verif.Proof.AnalyzerTrace
import Verif.Props.Demo
/-!
# Properties of the trace analyzer (libCacheSim/traceAnalyzer)

For every time window `w` and every trace `l` that is not empty, sorted by time and of bounded length and
duration (`Spec.TraceStats.Good`); the warm-up time is a multiple of the window.  The specification of the
numbers is in Verif/Spec/TraceStats.lean.  What happens on other traces is shown by the theorems named
`_fails`.
-/

namespace Verif.Props
open Verif Verif.Analyzer Verif.Spec.TraceStats
set_option linter.unusedVariables false
set_option maxRecDepth 20000

/-- a demo trace: 8 requests to 4 objects over 34 seconds -/
def Analyzer_trace : List Rec := [⟨100, 7, 40, 0, 1⟩, ⟨103, 9, 10, 60, 3⟩, ⟨103, 7, 40, 0, 1⟩, ⟨111, 7, 44, 60, 3⟩,
  ⟨112, 4, 5, 300, 1⟩, ⟨125, 9, 10, 60, 9⟩, ⟨126, 7, 44, 0, 1⟩, ⟨134, 6, 1, 0, 1⟩]

theorem Analyzer_good : Good 10 Analyzer_trace := by
  constructor <;> decide

/-- the pass over it -/
def Analyzer_pass : Pass := ((pass 10 20 Analyzer_trace).toOption).getD { notes := [], st := State.init 1 0, endTs := 0 }

/-! ## C58: what the report says first -/

/-- The headline counts: requests, objects, bytes of both, and the time span. -/
theorem C58_headline_Analyzer_partial {w warmup : Nat} {l : List Rec} (h : Good w l) (hw : warmup % w = 0) :
    ∃ p, pass w warmup l = .ok p ∧
      headline p = { nReq := l.length, nObj := (objects l).length, reqBytes := (l.map (·.size)).sum, objBytes := (((withPast l).filter (fun x => decide (isFirst x))).map (fun x => x.2.size)).sum, span := finish l - start l } := by
  obtain ⟨p, h1, _, h3, hi⟩ := pass_ok h hw
  refine ⟨p, h1, ?_⟩
  unfold headline
  have hb : (l.map (·.size)).sum < two64 := h.bytes
  have hf : firstBytes l ≤ (l.map (·.size)).sum := by
    unfold firstBytes
    conv => rhs; rw [← map_snd_withPast l, List.map_map]
    have : (((withPast l).filter (fun x => decide (isFirst x))).map (fun x => x.2.size)).Sublist ((withPast l).map (fun x => x.2.size)) :=
      List.filter_sublist.map _
    exact sublist_sum_le this
  have hk : p.st.map.length = (objects l).length := by rw [← hi.keys, List.length_map]
  rw [hi.nReq, hk, hi.sumReq, hi.sumObj, Nat.mod_eq_of_lt hb, Nat.mod_eq_of_lt (by omega), h3, hi.start]
  rfl

example : headline Analyzer_pass = { nReq := 8, nObj := 4, reqBytes := 194, objBytes := 56, span := 34 } := by decide +kernel

/-- X-hit: entry `x - 1` is the number of objects requested exactly `x` times. -/
theorem C58_xHit_Analyzer_partial {w warmup : Nat} {l : List Rec} (h : Good w l) (hw : warmup % w = 0) (n : Nat) :
    ∃ p c, pass w warmup l = .ok p ∧ hitCounts n p.st.map = .ok c ∧ c.length = n ∧
      ∀ x, 1 ≤ x → x ≤ n → c[x - 1]? = some ((objects l).countP (fun id => decide (freq l id = x))) := by
  obtain ⟨p, h1, _, _, hi⟩ := pass_ok h hw
  obtain ⟨c, c1, c2, c3⟩ := hit_fold n (p.st.map.map (·.2.freq)) (List.replicate n 0) (by simp) (by
    rw [hi.freqs]
    intro f hf
    obtain ⟨id, hid, rfl⟩ := List.mem_map.mp hf
    exact freq_pos hid)
  refine ⟨p, c, h1, ?_, c2, fun x hx1 hx2 => ?_⟩
  · unfold hitCounts; rw [foldl_map_hit]; exact c1
  · rw [c3 x hx1 hx2, List.getElem?_replicate, if_pos (by omega), hi.freqs, List.count, List.countP_map]
    simp only [Option.map_some, Nat.zero_add, Option.some.injEq]
    apply List.countP_congr
    intro a _
    simp

example : (hitCounts 3 Analyzer_pass.st.map).toOption = some [2, 1, 0] := by decide +kernel

/-- The most popular objects: the largest request counts, largest first. -/
theorem C58_popular_Analyzer_partial {w warmup : Nat} {l : List Rec} (h : Good w l) (hw : warmup % w = 0) (k : Nat)
    (hk : k ≤ (objects l).length) :
    ∃ p top, pass w warmup l = .ok p ∧ popular k p.st.map = .ok top ∧ top.length = k ∧
      top.Pairwise (fun a b => b ≤ a) ∧
      ∃ rest, (top ++ rest).Perm ((objects l).map (freq l)) ∧ ∀ a ∈ top, ∀ b ∈ rest, b ≤ a := by
  obtain ⟨p, h1, _, _, hi⟩ := pass_ok h hw
  have hlen : p.st.map.length = (objects l).length := by rw [← hi.keys, List.length_map]
  have hs := sortedFreq_sorted p.st.map
  have hp := sortedFreq_perm p.st.map
  refine ⟨p, (sortedFreq p.st.map).take k, h1, ?_, ?_, hs.sublist (List.take_sublist _ _), (sortedFreq p.st.map).drop k, ?_, ?_⟩
  · unfold popular; rw [if_pos (by omega)]
  · rw [List.length_take, hp.length_eq, List.length_map]; omega
  · rw [List.take_append_drop, ← hi.freqs]; exact hp
  · intro a ha b hb
    rw [← List.take_append_drop k (sortedFreq p.st.map), List.pairwise_append] at hs
    exact hs.2.2 a ha b hb

example : (popular 3 Analyzer_pass.st.map).toOption = some [4, 2, 1] := by decide +kernel

/-- The popularity file: one line per request count that occurs, with the number of objects, larger
counts first. -/
theorem C58_popularityFile_Analyzer_partial {w warmup : Nat} {l : List Rec} (h : Good w l) (hw : warmup % w = 0) :
    ∃ p, pass w warmup l = .ok p ∧ (popularityDump p.st.map).Pairwise (fun a b => b.1 < a.1) ∧
      ∀ f c, (f, c) ∈ popularityDump p.st.map ↔ 0 < c ∧ c = (objects l).countP (fun id => decide (freq l id = f)) := by
  obtain ⟨p, h1, _, _, hi⟩ := pass_ok h hw
  obtain ⟨a, b⟩ := popularityDump_spec p.st.map
  refine ⟨p, h1, a, fun f c => ?_⟩
  rw [b f c, hi.freqs, List.count, List.countP_map]
  have : (objects l).countP ((· == f) ∘ freq l) = (objects l).countP (fun id => decide (freq l id = f)) := by
    apply List.countP_congr
    intro x _
    simp
  rw [this]

example : popularityDump Analyzer_pass.st.map = [(4, 1), (2, 1), (1, 2)] := by decide +kernel

/-- A run that finishes has seen the requests in non-decreasing time windows: traces that go back by a
window are rejected, never silently miscounted. -/
theorem C58_windowsInOrder_Analyzer {w warmup : Nat} {l : List Rec} {p : Pass} (h : pass w warmup l = .ok p) :
    p.notes.Pairwise (fun a b => windowIdx w a.rel ≤ windowIdx w b.rel) :=
  windows_in_order h

example : Analyzer_pass.notes.map (fun n => windowIdx 10 n.rel) = [0, 0, 0, 1, 1, 2, 2, 3] := by decide +kernel

/-- An empty trace is reported as one request to one object of one byte. -/
theorem C58_headline_Analyzer_fails :
    ∃ p, pass 10 0 [] = .ok p ∧ headline p = { nReq := 1, nObj := 1, reqBytes := 1, objBytes := 1, span := 0 } :=
  ⟨_, rfl, rfl⟩

/-- A trace that reaches the last window below 2³¹ seconds overflows a signed integer. -/
theorem C58_noOverflow_Analyzer_fails :
    errOf (pass 1073741824 0 [⟨0, 1, 1, 0, 1⟩, ⟨1073741824, 2, 1, 0, 1⟩]) = some .overflow := by decide +kernel

/-- A trace with fewer objects than `n_popular` asks for is read past the end of the list of counts. -/
theorem C58_popular_Analyzer_fails :
    ∃ p, pass 10 0 [⟨0, 1, 1, 0, 1⟩] = .ok p ∧ popular 8 p.st.map = .error .outOfBounds :=
  ⟨_, rfl, rfl⟩

/-- Requests out of order within a window abort the run if they are to the same object, and are accepted
if they are not. -/
theorem C58_unsorted_Analyzer_fails :
    errOf (pass 10 0 [⟨0, 1, 1, 0, 1⟩, ⟨5, 2, 1, 0, 1⟩, ⟨3, 2, 1, 0, 1⟩]) = some .assertFail ∧
      errOf (pass 10 0 [⟨0, 1, 1, 0, 1⟩, ⟨5, 2, 1, 0, 1⟩, ⟨3, 3, 1, 0, 1⟩]) = none := by
  refine ⟨?_, ?_⟩ <;> decide +kernel

/-! ## C59: operations and TTLs -/

/-- The numbers of requests per operation, of writes, of overwrites and of deletes. -/
theorem C59_ops_Analyzer_partial {w : Nat} {l : List Rec} (h : Good w l) (hop : ∀ r ∈ l, r.op ≤ 15) :
    ∃ s, OpStat.run (notes w l) = .ok s ∧
      (∀ o, o ≤ 15 → s.cnt[o]? = some (l.countP (fun r => decide (r.op = o)))) ∧
      s.report = (l.countP (fun r => decide (isWrite r)), (withPast l).countP (fun x => decide (¬ isFirst x ∧ isWrite x.2)), l.countP (fun r => decide (r.op = 9))) := by
  have hlen := h.count
  have hcnt : ∀ q : Nat → Bool, (notes w l).countP (fun n => q n.op) = l.countP (fun r => q r.op) := by
    intro q
    conv => rhs; rw [← map_snd_withPast l]
    unfold notes
    rw [List.countP_map, List.countP_map]
    rfl
  obtain ⟨s, h1, h2, h3, h4⟩ := op_fold (notes w l) (by
    intro n hn
    obtain ⟨x, hx, rfl⟩ := List.mem_map.mp hn
    exact hop x.2 (mem_of_withPast hx).1) (by rw [notes_length]; unfold two64; omega)
  have h3' : ∀ o, o ≤ 15 → s.cnt[o]? = some (l.countP (fun r => decide (r.op = o))) := by
    intro o ho
    rw [h3 o ho, hcnt (fun k => decide (k = o))]
  refine ⟨s, h1, h3', ?_⟩
  unfold OpStat.report
  simp only [List.getD_eq_getElem?_getD]
  rw [h3' opSet (by decide), h3' opReplace (by decide), h3' opCas (by decide), h3' opDelete (by decide), h4]
  simp only [Option.getD_some, Prod.mk.injEq]
  refine ⟨?_, ?_, rfl⟩
  · have hsum : l.countP (fun r => decide (r.op = opSet)) + l.countP (fun r => decide (r.op = opReplace)) + l.countP (fun r => decide (r.op = opCas)) = l.countP (fun r => decide (isWrite r)) := by
      clear h hop hlen hcnt h1 h2 h3 h4 h3'
      induction l with
      | nil => rfl
      | cons r l ih =>
        simp only [List.countP_cons, decide_eq_true_eq, isWrite] at *
        unfold opSet opReplace opCas at *
        by_cases e1 : r.op = 3
        · simp [e1]; omega
        · by_cases e2 : r.op = 6
          · simp [e2]; omega
          · by_cases e3 : r.op = 5
            · simp [e3]; omega
            · simp [e1, e2, e3]; omega
    rw [hsum]
    have : l.countP (fun r => decide (isWrite r)) ≤ l.length := List.countP_le_length
    exact Nat.mod_eq_of_lt (by unfold two64; omega)
  · unfold notes
    rw [List.countP_map]
    rfl

example : ((OpStat.run (notes 10 Analyzer_trace)).toOption.map (·.report)) = some (2, 1, 1) := by decide +kernel

/-- An operation code above 15 is counted outside the array. -/
theorem C59_ops_Analyzer_fails : OpStat.run (notes 10 [⟨0, 1, 1, 0, 16⟩]) = .error .outOfBounds := rfl

/-- The TTL file: one line per TTL that occurs, with its number of requests; nothing if there are more than
1000000 different TTLs. -/
theorem C59_ttl_Analyzer_partial {w : Nat} {l : List Rec} (h : Good w l) :
    ((TtlStat.run (notes w l)).dump.map (·.1)).Nodup ∧
      (((l.filter (fun r => decide (0 < r.ttl))).map (·.ttl)).eraseDups.length ≤ 1000000 →
        ∀ t c, (t, c) ∈ (TtlStat.run (notes w l)).dump ↔ 0 < t ∧ 0 < c ∧ c = l.countP (fun r => decide (r.ttl = t))) ∧
      (1000000 < ((l.filter (fun r => decide (0 < r.ttl))).map (·.ttl)).eraseDups.length → (TtlStat.run (notes w l)).dump = []) := by
  have hlen := h.count
  have e : ((notes w l).filter (fun n => decide (n.ttl > 0))).map (·.ttl) = (l.filter (fun r => decide (0 < r.ttl))).map (·.ttl) := by
    conv => rhs; rw [← map_snd_withPast l]
    unfold notes
    rw [List.filter_map, List.filter_map, List.map_map, List.map_map]
    rfl
  obtain ⟨h1, h2⟩ := ttl_fold (notes w l)
  rw [e] at h1 h2
  have hks : ((l.filter (fun r => decide (0 < r.ttl))).map (·.ttl)).length < two32 := by
    rw [List.length_map]
    exact Nat.lt_of_le_of_lt (List.length_filter_le _ _) hlen
  unfold TtlStat.dump
  rw [h1, h2]
  refine ⟨?_, ?_, ?_⟩
  · split
    · simp
    · exact bumps_nodup _
  · intro hle t c
    have hn : ¬ (((l.filter (fun r => decide (0 < r.ttl))).map (·.ttl)).eraseDups.length > 1000000) := by omega
    simp only [hn, decide_false, Bool.false_eq_true, if_false]
    rw [bump_mem _ hks]
    have hc : 0 < t → ((l.filter (fun r => decide (0 < r.ttl))).map (·.ttl)).count t = l.countP (fun r => decide (r.ttl = t)) := by
      intro ht
      rw [List.count, List.countP_map, List.countP_filter]
      apply List.countP_congr
      intro r _
      simp
      omega
    have hz : ¬ 0 < t → ((l.filter (fun r => decide (0 < r.ttl))).map (·.ttl)).count t = 0 := by
      intro ht
      rw [List.count_eq_zero]
      intro hm
      obtain ⟨r, hr, rfl⟩ := List.mem_map.mp hm
      have := (List.mem_filter.mp hr).2
      simp at this
      exact ht this
    by_cases ht : 0 < t
    · rw [hc ht]; simp [ht]
    · rw [hz ht]
      constructor
      · rintro ⟨a, b⟩; omega
      · rintro ⟨a, _⟩; exact absurd a ht
  · intro hgt
    simp [hgt]

example : (TtlStat.run (notes 10 Analyzer_trace)).dump = [(60, 3), (300, 1)] := by decide +kernel

end Verif.Props
