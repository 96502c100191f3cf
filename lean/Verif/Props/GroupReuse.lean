import Verif.Proof.GroupReuse
/-!
# C116: reuse of objects grouped by time of first request
-/

namespace Verif.Props
open Verif Verif.Spec.Reuses Verif.GroupReuse
set_option maxRecDepth 20000

/-- C116: over times that do not go back and fit 31 bits, and for every order in which the hash map is walked, the statistics list the objects in the order of their first requests, each with the number of that request,
how often it was requested again, and the time between its first and last request divided by that number. Missing: times of 2^31 seconds and more (`C116_lateTimes_fails_GroupReuse`). -/
theorem C116_statistics_GroupReuse_partial (rs : List Rec) (h : Clock rs) :
    ∃ n m, scan (0, []) rs = .ok (n, m) ∧ n = rs.length ∧ ∀ walk : List (Nat × Val), walk.Perm m → sorted walk = (objects rs).map (reuse rs) :=
  ⟨rs.length, mapOf rs, scan_ok rs [] h, rfl, fun walk hw => sorted_ok rs walk hw⟩

/-- C116: the groups are consecutive: with `n` objects, group `i` averages the `g` objects from position `n / 5 + i * g` on; all groups are reported that end before position `4 n / 5`.
Missing: the group that ends exactly there (`C116_lastGroup_fails_GroupReuse`). -/
theorem C116_groups_GroupReuse_partial (stats : List Stat) (g : Nat) (hg : 0 < g) :
    ∃ out, overTime stats g = .ok out ∧ (∀ i, i < out.length ↔ stats.length / 5 + (i + 1) * g < stats.length * 4 / 5) ∧
      ∀ i (hi : i < out.length), out[i] = average (((stats.map Stat.mean).drop (stats.length / 5 + i * g)).take g) := by
  have hfuel : stats.length * 4 / 5 ≤ stats.length / 5 + (stats.length + 1) * g := by
    have : stats.length + 1 ≤ (stats.length + 1) * g := Nat.le_mul_of_pos_right _ hg
    omega
  have e := groups_ok (stats.map Stat.mean) g (stats.length * 4 / 5) hg (stats.length + 1) (stats.length / 5) hfuel (Nat.succ_pos _)
  refine ⟨_, by unfold overTime; rw [if_neg (by omega)]; exact e, ?_, ?_⟩
  · intro i
    rw [List.length_map, List.length_range]
    show i + 1 ≤ _ ↔ _
    rw [Nat.le_div_iff_mul_le hg]
    have : 0 < (i + 1) * g := Nat.mul_pos (Nat.succ_pos _) hg
    omega
  · intro i hi
    rw [List.length_map, List.length_range] at hi
    have hlt : (i + 1) * g ≤ stats.length * 4 / 5 - stats.length / 5 - 1 := (Nat.le_div_iff_mul_le hg).1 hi
    rw [List.getElem_map, List.getElem_range]
    unfold GroupReuse.mean average
    rw [if_neg]
    intro c
    have hl := congrArg List.length c
    rw [List.length_take, List.length_drop, List.length_map, List.length_nil] at hl
    rw [Nat.add_mul, Nat.one_mul] at hlt
    omega

/-- seven requests for three objects -/
def reuseDemo : List Rec := [⟨10, 7⟩, ⟨11, 3⟩, ⟨15, 7⟩, ⟨15, 9⟩, ⟨20, 3⟩, ⟨31, 7⟩, ⟨36, 7⟩]

example : Clock reuseDemo ∧ (objects reuseDemo).map (reuse reuseDemo) = [⟨1, 3, 26 / 3⟩, ⟨2, 1, 9⟩, ⟨4, 0, 0⟩] := by unfold Clock; decide +kernel

example : overTime ((List.range 20).map fun i => ⟨i, 1, (i : Rat)⟩) 5 = .ok [6, 11] := by decide +kernel

/-- C116 fails when the middle three fifths are a whole number of groups: the last group is left out. -/
theorem C116_lastGroup_fails_GroupReuse : overTime ((List.range 10).map fun i => ⟨i, 1, (i : Rat)⟩) 3 = .ok [3] := by decide +kernel

/-- C116 fails for times of 2^31 seconds and more: the time of the last request is cut to a signed 32-bit number, and the time between two requests of the same second becomes 2^32 seconds. -/
theorem C116_lateTimes_fails_GroupReuse : (scan (0, []) [⟨2147483648, 7⟩, ⟨2147483648, 7⟩]).map (fun p => sorted p.2) = .ok [⟨1, 1, 4294967296⟩] := by decide +kernel

end Verif.Props
