import Verif.Proof.Grouping
import Verif.Spec.Grouping
import Verif.Spec.GroupReuse
/-!
# C117: random groups and groups by time
-/

namespace Verif.Props
open Verif Verif.GroupReuse Verif.Grouping Verif.Spec.Sample
set_option maxRecDepth 20000

theorem shuffle_length {a b : Nat} {s : List Nat} (h : s.Nodup ∧ ∀ x, x ∈ s ↔ a ≤ x ∧ x < b) : s.length = b - a := by
  have hp : s.Perm (List.range' a (b - a)) := by
    rw [List.perm_ext_iff_of_nodup h.1 (List.nodup_range')]
    intro x
    rw [h.2, List.mem_range'_1]
    omega
  rw [hp.length_eq, List.length_range']

/-- C117: if there are more objects than a group and the number of repetitions together, every repetition draws a random group of `g` different objects from the middle part of the trace, whatever the shuffles are; the groups of
repetitions between two shuffles, of which there are `(b - a - 1) / g`, have no object in common. Missing: samples of a small set of objects (`C117_fewObjects_fails_Grouping`). -/
theorem C117_randomGroups_Grouping_partial (a b g : Nat) (shs : List (List Nat)) (hg : 0 < g) (hn : a + g + shs.length < b) (hs : Shuffles a b shs) :
    ∃ gs, randomGroups a b g shs = .ok gs ∧ gs.length = shs.length ∧ (∀ l ∈ gs, Group a b g l) ∧
      ∀ i j (hi : i < gs.length) (hj : j < gs.length), i < j → i / ((b - a - 1) / g) = j / ((b - a - 1) / g) → ∀ x ∈ gs[i], x ∉ gs[j] := by
  let S : Nat → List Nat := fun i => shs.getD i (List.range' a (b - a))
  have hS : ∀ i, (S i).Nodup ∧ ∀ x, x ∈ S i ↔ a ≤ x ∧ x < b := by
    intro i
    by_cases c : i < shs.length
    · have : S i = shs[i] := by simp [S, c]
      rw [this]
      exact hs _ (List.getElem_mem c)
    · have : S i = List.range' a (b - a) := by
        have : shs.length ≤ i := by omega
        simp [S, this]
      rw [this]
      refine ⟨List.nodup_range', fun x => ?_⟩
      rw [List.mem_range'_1]
      omega
  have hlen : ∀ i, (S i).length = b - a := fun i => shuffle_length (hS i)
  have hsh : (List.range' 0 shs.length).map S = shs := by
    apply List.ext_getElem
    · simp
    · intro i h1 h2
      simp [S, h2]
  have hd := draws_ok hg (show g < b - a by omega) hlen shs.length 0
  rw [hsh] at hd
  have hm : 0 < (b - a - 1) / g := Nat.div_pos (by omega) hg
  have hmg : (b - a - 1) / g * g ≤ b - a - 1 := Nat.div_mul_le_self _ _
  refine ⟨_, by unfold randomGroups; rw [if_neg (by omega)]; exact hd, by simp, ?_, ?_⟩
  · intro l hl
    obtain ⟨i, _, rfl⟩ := List.mem_map.1 hl
    generalize (b - a - 1) / g = m at hm hmg
    refine ⟨?_, ?_, ?_⟩
    · unfold grp
      rw [List.length_take, List.length_drop, hlen]
      have h1 : (i % m + 1) * g ≤ m * g := Nat.mul_le_mul_right _ (Nat.mod_lt i hm)
      rw [Nat.add_mul] at h1
      omega
    · exact ((hS _).1.sublist (List.drop_sublist _ _)).sublist (List.take_sublist _ _)
    · intro x hx
      exact ((hS _).2 x).1 (List.mem_of_mem_drop (List.mem_of_mem_take hx))
  · intro i j hi hj hij he
    rw [List.getElem_map, List.getElem_map, List.getElem_range', List.getElem_range']
    simp only [Nat.zero_add, Nat.one_mul]
    generalize (b - a - 1) / g = m at hm hmg he
    unfold grp
    rw [he]
    apply slice_disjoint (hS _).1
    have h1 := Nat.div_add_mod i m
    have h2 := Nat.div_add_mod j m
    rw [he] at h1
    have : (i % m + 1) * g ≤ j % m * g := Nat.mul_le_mul_right _ (by omega)
    rw [Nat.add_mul] at this
    omega

/-- two shuffles of seven objects, the second of which is not used because the first still has enough objects -/
example : randomGroups 3 10 2 [[9, 3, 5, 4, 8, 7, 6], [3, 4, 5, 6, 7, 8, 9], [4, 3, 5, 6, 7, 8, 9], [9, 8, 7, 6, 5, 4, 3]] = .ok [[9, 3], [5, 4], [8, 7], [9, 8]] ∧ 3 + 2 + 4 < 10 := by decide

/-- C117 is false of samples of few objects: eight random groups of two out of ten objects are asked for, none is drawn and nothing is reported. -/
theorem C117_fewObjects_fails_Grouping : ∃ shs, Shuffles 0 10 shs ∧ shs.length = 8 ∧ randomGroups 0 10 2 shs = .ok [] := by
  refine ⟨List.replicate 8 (List.range 10), ?_, rfl, by decide⟩
  intro s h
  rw [List.mem_replicate] at h
  rw [h.2]
  exact ⟨List.nodup_range, fun x => by simp⟩

/-- C117: the group by time is `g` consecutive objects of the middle part, for every starting position the generator can return. -/
theorem C117_timeGroups_Grouping (a b g base : Nat) (h1 : a ≤ base) (h2 : base ≤ b - g) (hg : g ≤ b) :
    Group a b g (seqGroup g base) ∧ ∀ i (hi : i < (seqGroup g base).length), (seqGroup g base)[i] = base + i := by
  have e : seqGroup g base = List.range' base g := by
    unfold seqGroup
    rw [List.range'_eq_map_range]
  rw [e]
  refine ⟨⟨List.length_range', List.nodup_range', fun x hx => ?_⟩, fun i hi => by simp⟩
  rw [List.mem_range'_1] at hx
  omega

example : seqGroup 3 7 = [7, 8, 9] ∧ 3 ≤ 7 ∧ 7 ≤ 10 - 3 := by decide

/-- C117: on groups in which just the reused objects have a mean time other than 0, both kinds of groups are measured alike. Missing: objects reused within one second (`C117_measures_fails_Grouping`). -/
theorem C117_measures_Grouping_partial (stats : Nat → Stat) (l : List Nat) (h : ∀ i ∈ l, 0 < (stats i).reuses ↔ (stats i).mean ≠ 0) :
    seqMetric stats l = rndMetric stats l := by
  unfold seqMetric rndMetric
  rw [List.filter_congr (q := fun i => decide ((stats i).mean ≠ 0)) (fun i hi => by
    have := h i hi
    exact decide_eq_decide.2 this)]

example : (0 < (Stat.mk 1 2 5).reuses ↔ (Stat.mk 1 2 5).mean ≠ 0) ∧ (0 < (Stat.mk 1 0 0).reuses ↔ (Stat.mk 1 0 0).mean ≠ 0) := by decide +kernel

/-- C117: a group by time is measured by the average of the mean times of its reused objects, and the average number of reuses of all of its objects. -/
theorem C117_timeMeasure_Grouping (stats : Nat → Stat) (l : List Nat) (h : ∃ i ∈ l, 0 < (stats i).reuses) :
    seqMetric stats l = (Spec.Reuses.average ((l.filter fun i => 0 < (stats i).reuses).map fun i => (stats i).mean), Spec.Reuses.average (l.map fun i => ((stats i).reuses : Rat))) := by
  obtain ⟨i, hi, hr⟩ := h
  have h1 : (l.filter fun i => decide (0 < (stats i).reuses)).map (fun i => (stats i).mean) ≠ [] := by
    intro c
    rw [List.map_eq_nil_iff] at c
    have : i ∈ l.filter fun i => decide (0 < (stats i).reuses) := List.mem_filter.2 ⟨hi, by simpa using hr⟩
    rw [c] at this
    cases this
  have h2 : l.map (fun i => ((stats i).reuses : Rat)) ≠ [] := by
    intro c
    rw [List.map_eq_nil_iff] at c
    rw [c] at hi
    cases hi
  unfold seqMetric GroupReuse.mean Spec.Reuses.average
  rw [if_neg h2]
  show ((if (l.filter fun i => decide (0 < (stats i).reuses)).map (fun i => (stats i).mean) = [] then _ else _), _) = _
  rw [if_neg h1]

/-- C117 is false of objects reused within one second: the time 0 lowers the mean of a group by time, and is left out of the mean of the same objects as a random group. -/
theorem C117_measures_fails_Grouping : ∃ (stats : Nat → Stat) (l : List Nat), (seqMetric stats l).1 = 5 ∧ (rndMetric stats l).1 = 10 ∧ (seqMetric stats l).2 = (rndMetric stats l).2 :=
  ⟨fun i => if i = 0 then ⟨0, 1, 0⟩ else ⟨1, 1, 10⟩, [0, 1], by decide +kernel, by decide +kernel, by decide +kernel⟩

/-- C117: with one thread as many repetitions are done as are asked for; with several the number is rounded up to whole batches. -/
theorem C117_repeats_Grouping_partial (g n threads : Nat) (hg : 0 < g) :
    ∃ k, repeats g n threads = .ok k ∧ n ≤ k ∧ (threads = 1 → k = n) ∧ k < n + max (100000 / g) 20 := by
  have hb : 0 < max (100000 / g) 20 := by omega
  unfold repeats
  rw [if_neg (by omega)]
  refine ⟨_, rfl, ?_⟩
  generalize max (100000 / g) 20 = t at hb
  by_cases c : threads = 1
  · rw [if_pos c]
    exact ⟨Nat.le_refl _, fun _ => rfl, by omega⟩
  · rw [if_neg c]
    have h1 := Nat.div_add_mod (n + t - 1) t
    have h2 := Nat.mod_lt (n + t - 1) hb
    rw [Nat.mul_comm] at h1
    exact ⟨by omega, fun e => absurd e c, by omega⟩

/-- C117 is false of the number of repetitions with two threads: 150 are asked for and 200 are done. -/
theorem C117_repeats_fails_Grouping : repeats 1000 150 2 = .ok 200 := by decide

/-- C117 is false of groups of no objects: the program divides by the size of a group. -/
theorem C117_emptyGroups_fails_Grouping (n threads : Nat) : repeats 0 n threads = .error .divZero := by
  unfold repeats
  rw [if_pos rfl]

end Verif.Props
