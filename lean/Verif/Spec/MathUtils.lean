/-!
# Averages and medians (for C118)
-/

namespace Verif.Spec.Averages

/-- the list without its first `i` and its last `j` elements is `l` -/
def Inner (v : List Rat) (i j : Nat) (l : List Rat) : Prop := ∃ p s, v = p ++ l ++ s ∧ p.length = i ∧ s.length = j

/-- `m` is the average of `l` -/
def Average (l : List Rat) (m : Rat) : Prop := (l.length : Rat) * m = l.sum

/-- at least half of the list is at most `m`, at least half is at least `m` -/
def Median (l : List Rat) (m : Rat) : Prop :=
  l.length ≤ 2 * l.countP (fun x => decide (x ≤ m)) ∧ l.length ≤ 2 * l.countP (fun x => decide (m ≤ x))

end Verif.Spec.Averages
