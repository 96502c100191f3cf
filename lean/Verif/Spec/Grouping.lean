/-!
# What a sample of groups is (for C117)
-/

namespace Verif.Spec.Sample

/-- `g` different objects from the positions `a ≤ i < b` -/
def Group (a b g : Nat) (l : List Nat) : Prop := l.length = g ∧ l.Nodup ∧ ∀ x ∈ l, a ≤ x ∧ x < b

/-- every shuffle is an arrangement of the positions `a ≤ i < b` -/
def Shuffles (a b : Nat) (shs : List (List Nat)) : Prop := ∀ s ∈ shs, s.Nodup ∧ ∀ x, x ∈ s ↔ a ≤ x ∧ x < b

end Verif.Spec.Sample
