import Verif.Tools.Grouping
/-!
# Proofs about random groups
-/

namespace Verif.Grouping
open Verif

/-- group `i` of the repetitions: there are `m` groups per shuffle -/
def grp (S : Nat → List Nat) (m g i : Nat) : List Nat := ((S (i / m * m)).drop (i % m * g)).take g

/-- the vector and the position before repetition `i` -/
def before (S : Nat → List Nat) (a b m g : Nat) : Nat → List Nat × Nat
  | 0 => start a b
  | j + 1 => (S (j / m * m), (j % m + 1) * g)

theorem draw_new {g : Nat} {st : List Nat × Nat} {sh : List Nat} (h : st.1.length ≤ st.2 + g) (h2 : g ≤ sh.length) :
    draw g st sh = .ok (sh.take g, (sh, g)) := by
  unfold draw
  have : (if st.2 + g ≥ st.1.length then (sh, 0) else st) = (sh, 0) := if_pos h
  rw [this]
  show (if 0 + g ≤ sh.length then _ else _) = _
  rw [if_pos (by omega)]
  simp

theorem draw_old {g : Nat} {st : List Nat × Nat} {sh : List Nat} (h : st.2 + g < st.1.length) :
    draw g st sh = .ok ((st.1.drop st.2).take g, (st.1, st.2 + g)) := by
  unfold draw
  have : (if st.2 + g ≥ st.1.length then (sh, 0) else st) = st := if_neg (by omega)
  rw [this]
  show (if st.2 + g ≤ st.1.length then _ else _) = _
  rw [if_pos (by omega)]

theorem draw_ok {S : Nat → List Nat} {a b g : Nat} (hg : 0 < g) (hab : g < b - a) (hS : ∀ i, (S i).length = b - a) (i : Nat) :
    draw g (before S a b ((b - a - 1) / g) g i) (S i) = .ok (grp S ((b - a - 1) / g) g i, before S a b ((b - a - 1) / g) g (i + 1)) := by
  have hm : 0 < (b - a - 1) / g := Nat.div_pos (by omega) hg
  have hle : ∀ k, k ≤ (b - a - 1) / g ↔ k * g ≤ b - a - 1 := fun k => Nat.le_div_iff_mul_le hg
  generalize (b - a - 1) / g = m at hm hle ⊢
  cases i with
  | zero =>
    have hlen : (List.range' a (b - a)).length = b - a := List.length_range'
    rw [draw_new (by show (List.range' a (b - a)).length ≤ b - a + g; omega) (by rw [hS]; omega)]
    simp [grp, before]
  | succ j =>
    have hdm := Nat.div_add_mod j m
    have hlt := Nat.mod_lt j hm
    by_cases c : j % m + 1 = m
    · have hj : j + 1 = m * (j / m + 1) := by rw [Nat.mul_add]; omega
      have h0 : (j + 1) % m = 0 := by rw [hj]; exact Nat.mul_mod_right _ _
      have h1 : (j + 1) / m * m = j + 1 := by
        have := Nat.div_add_mod (j + 1) m
        rw [Nat.mul_comm]; omega
      have hbig : ¬ (j % m + 2) * g ≤ b - a - 1 := by
        rw [← hle]; omega
      rw [draw_new (by
        show (S (j / m * m)).length ≤ (j % m + 1) * g + g
        rw [hS]; rw [Nat.add_mul] at hbig ⊢; omega) (by rw [hS]; omega)]
      simp [grp, before, h0, h1]
    · have hj : j + 1 = m * (j / m) + (j % m + 1) := by omega
      have h0 : (j + 1) % m = j % m + 1 := by
        conv => lhs; rw [hj]
        rw [Nat.mul_add_mod, Nat.mod_eq_of_lt (by omega)]
      have h1 : (j + 1) / m = j / m := by
        conv => lhs; rw [hj]
        rw [Nat.mul_add_div hm, Nat.div_eq_of_lt (show j % m + 1 < m by omega)]
        omega
      have hsm : (j % m + 2) * g ≤ b - a - 1 := by
        rw [← hle]; omega
      rw [draw_old (by
        show (j % m + 1) * g + g < (S (j / m * m)).length
        rw [hS]; rw [Nat.add_mul] at hsm ⊢; omega)]
      simp only [grp, before, h0, h1, Nat.add_mul, Nat.one_mul]

theorem draws_ok {S : Nat → List Nat} {a b g : Nat} (hg : 0 < g) (hab : g < b - a) (hS : ∀ i, (S i).length = b - a) : ∀ (k i : Nat),
    draws g (before S a b ((b - a - 1) / g) g i) ((List.range' i k).map S) = .ok ((List.range' i k).map (grp S ((b - a - 1) / g) g))
  | 0, i => rfl
  | k + 1, i => by
    rw [List.range'_succ, List.map_cons, List.map_cons]
    unfold draws
    rw [draw_ok hg hab hS i]
    show (draws g (before S a b ((b - a - 1) / g) g (i + 1)) _ >>= _) = _
    rw [draws_ok hg hab hS k (i + 1)]
    rfl

theorem slice_disjoint {l : List Nat} (hl : l.Nodup) {x y g : Nat} (h : x + g ≤ y) : ∀ z ∈ (l.drop x).take g, z ∉ (l.drop y).take g := by
  intro z hz hz'
  have h1 : z ∈ l.take y := by
    rw [List.take_drop] at hz
    exact List.mem_of_mem_take (i := g + x) (by
      have := List.mem_of_mem_drop hz
      rw [List.take_take]
      rw [show min (g + x) y = g + x by omega, Nat.add_comm g x]
      exact this)
  have h2 : z ∈ l.drop y := List.mem_of_mem_take hz'
  have := hl
  rw [← List.take_append_drop y l, List.nodup_append] at this
  exact this.2.2 z h1 z h2 rfl

end Verif.Grouping
