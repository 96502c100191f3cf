import Verif.Proof.LPARCRun
import Verif.Proof.ARCv0Run
/-!
# The target of the ARC with lazy promotion stays in its range
-/

namespace Verif.Spec.LazyARC
open Verif Verif.Spec

variable {P : Type} {A : Aim P} {cs : Nat}

theorem demote1_p (t : St P) : (demote1 cs t).p = t.p := by unfold demote1; split <;> rfl

theorem demote2_p (t : St P) : (demote2 cs t).p = t.p := by unfold demote2; split <;> rfl

theorem replace_p (f : Bool) (t : St P) : (replace A cs f t).p = t.p := by
  unfold replace; split
  · exact demote1_p t
  · exact demote2_p t

theorem missEvict_p (need : Nat) (f : Bool) (t : St P) : (missEvict A cs need f t).p = t.p := by
  unfold missEvict
  split
  · split
    · rw [replace_p]
    · rfl
  · rw [replace_p]; rfl

theorem room_p {E : St P → St P} (hE : ∀ t, (E t).p = t.p) (need : Nat) : ∀ (n : Nat) (t : St P), (room E cs need n t).p = t.p
  | 0, t => rfl
  | n + 1, t => by
    unfold room; split
    · rfl
    · rw [room_p hE need n, hE]

variable {Q : P → Prop}

theorem get_p (hu : ∀ p x y, Q p → Q (A.up p x y)) (hd : ∀ p x y, Q p → Q (A.down p x y)) (t : St P) (r : Req) (h : Q t.p) : Q (get A cs t r).2.p := by
  unfold get
  split
  · exact h
  split
  · exact h
  split
  · show Q (room _ cs r.size _ _).p
    rw [room_p (replace_p false)]; exact hu _ _ _ h
  split
  · show Q (room _ cs r.size _ _).p
    rw [room_p (replace_p true)]; exact hd _ _ _ h
  · show Q (room _ cs r.size _ _).p
    rw [room_p (missEvict_p r.size false)]; exact h

theorem run_p (hu : ∀ p x y, Q p → Q (A.up p x y)) (hd : ∀ p x y, Q p → Q (A.down p x y)) : ∀ (ops : List Op) (t : St P), Q t.p → Q (run A cs t ops).2.p
  | [], _, h => h
  | op :: ops, t, h => by
    refine run_p hu hd ops _ ?_
    cases op with
    | get r => exact get_p hu hd t r h
    | find r u => exact h
    | remove id => exact h
    | evict r => exact h
    | insert r => exact h

end Verif.Spec.LazyARC
