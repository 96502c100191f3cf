import Verif.Proof.ScanDetector
import Verif.Props.Demo
/-!
# The scan detector of the analyzer

`Verif/Spec/Scan.lean` states what a scan is.
-/

namespace Verif.Props
open Verif Verif.Spec
set_option maxRecDepth 20000

/-- C109: on every trace with next-access times the detector neither fails nor touches memory outside its vectors.  It writes one mark per request.  Its count of scan requests is the number of marks
and the sum of the reported scan sizes above the minimum.  Together with the other requests and those it has not decided on it counts every request once.  A marked request belongs to a scan above the minimum.
Missing: that the requests of all scans are marked (`C109_lastScans_fails_ScanDetector`). -/
theorem C109_scans_ScanDetector_partial (D m : Int) (hD : 0 ≤ D) (R : List Int) (hR : ∀ x ∈ R, x ≠ -2) :
    ∃ s, ScanDetector.run D m (ScanDetector.init R.length) R = .ok s ∧ s.marks.length = R.length ∧
      s.marks.count true = s.nScan ∧ (s.sizes.filter (fun n : Nat => decide ((n : Int) > m))).sum = s.nScan ∧
      s.nScan + s.nNon + (s.streams.map (fun ss => ss.times.length)).sum = R.length ∧
      ∀ i, s.marks[i]? = some true → ∃ g, i ∈ g ∧ (g.length : Int) > m ∧ IsScan R D g := by
  obtain ⟨s, h1, h2, h3⟩ := ScanDetector.run_inv hD R [] (ScanDetector.init R.length) (Nat.le_refl _) hR rfl (ScanDetector.init_inv _ D m _)
  rw [List.nil_append] at h2 h3
  have hs := h2.sum
  have he : s.streams.map (fun ss => ss.times.length) = s.streams.map ScanDetector.Stream.n := List.map_congr_left (fun ss hss => ((h2.good ss hss).n).symm)
  refine ⟨s, h1, h2.len, h2.count, h2.sizes, ?_, fun i hi => (h2.marked i hi).2⟩
  rw [he, hs, h3]

/-- a scan over six objects, a pause, single requests, and the objects of the scan again -/
def scan_trace : List Int := [20, 21, 22, 23, 24, 25, -1, -1, -1, -1, 50, 70, 90, -1, 100, 130, -1, -1, -1, -1, -1, -1, -1, -1, -1, -1]

example : (∀ x ∈ scan_trace, x ≠ -2) ∧ (ScanDetector.run 4 5 (ScanDetector.init scan_trace.length) scan_trace).toOption.map (fun s => (s.marks.take 8, s.nScan, s.nNon, s.sizes, s.streams.map (fun ss => ss.times))) =
    some ([true, true, true, true, true, true, false, false], 6, 15, [6], [[11], [10], [12], [14], [15]]) := by decide

/-- twelve objects, requested one after the other, twice -/
def scan_twice : List Int := (List.range 12).map (fun (i : Nat) => (i : Int) + 12) ++ List.replicate 12 (-1)

/-- C109 refuted for the scans under way at the end: in a trace that is the same scan of 12 requests twice, with a minimum of 10, no request is marked and none counted as part of a scan, and half of the requests are in neither count. -/
theorem C109_lastScans_fails_ScanDetector : IsScan scan_twice 100 (List.range 12) ∧
    ∃ s, ScanDetector.run 100 10 (ScanDetector.init 24) scan_twice = .ok s ∧ s.nScan = 0 ∧ s.nNon = 12 ∧ s.marks = List.replicate 24 false := by
  refine ⟨⟨List.pairwise_lt_range, 0, 12, by decide, by decide, ?_⟩, _, rfl, by decide, by decide, by decide⟩
  intro t ht
  have h12 := List.mem_range.1 ht
  refine ⟨(t : Int) + 12, ?_, ⟨by omega, by omega⟩, by omega, ?_, ?_, ?_⟩
  · unfold scan_twice
    rw [List.getElem?_append_left (by simpa using h12)]
    simp [h12]
  all_goals (rw [List.length_range]; omega)

end Verif.Props
