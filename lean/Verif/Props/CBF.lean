import Verif.Proof.CBF
/-!
# C40: the counting sketch
-/

namespace Verif.Props
open Verif Verif.CBF Verif.Spec.CBF

variable {κ : Type} [DecidableEq κ]

/-- C40: for any hash functions, any table size and any sequence of adds, estimates and decays, as long as no counter can
reach 2^31 (number of adds times number of hash functions), no call faults, an estimate changes nothing, and it is at
least the (decayed) number of times the key was added. -/
theorem C40_neverUnderestimates (H : Hashes κ) (num hs : Nat) (hnum : 0 < num) (hhs : 0 < hs) (ops : List (SOp κ))
    (hw : hs * adds ops < 2 ^ 31) (k : κ) :
    ∃ f v, run H (init num hs) ops = .ok f ∧ estimate H f k = .ok (v, f) ∧ (count k 0 ops : Int) ≤ v := by
  obtain ⟨f, e, ok, hf, m⟩ := run_spec (H := H) hhs ops (init_ok (hs := hs) hnum) rfl (by simpa using hw)
  obtain ⟨v, e2, _, le, _⟩ := estimate_spec (H := H) ok (by simpa using hw) (by omega) k
  refine ⟨f, v, e, e2, ?_⟩
  have := le _ (m k 0 (fun i _ => Nat.zero_le _))
  exact_mod_cast this

/-- C40: an estimate never exceeds the number of hash functions times the number of adds (so a sketch to which nothing was
added estimates 0 everywhere). -/
theorem C40_upperBound (H : Hashes κ) (num hs : Nat) (hnum : 0 < num) (hhs : 0 < hs) (ops : List (SOp κ))
    (hw : hs * adds ops < 2 ^ 31) (k : κ) :
    ∃ f v, run H (init num hs) ops = .ok f ∧ estimate H f k = .ok (v, f) ∧ 0 ≤ v ∧ v ≤ (hs * adds ops : Nat) := by
  obtain ⟨f, e, ok, hf, m⟩ := run_spec (H := H) hhs ops (init_ok (hs := hs) hnum) rfl (by simpa using hw)
  obtain ⟨v, e2, le, _⟩ := estimate_spec (H := H) ok (by simpa using hw) (by omega) k
  exact ⟨f, v, e, e2, by omega, by omega⟩

/-- C40: one decay halves every estimate exactly (rounding down). -/
theorem C40_decayHalves (H : Hashes κ) (num hs : Nat) (hnum : 0 < num) (hhs : 0 < hs) (ops : List (SOp κ))
    (hw : hs * adds ops < 2 ^ 31) (k : κ) :
    ∃ f v, run H (init num hs) ops = .ok f ∧ estimate H f k = .ok (v, f) ∧
      estimate H (decay f).2 k = .ok (v / 2, (decay f).2) := by
  obtain ⟨f, e, ok, hf, m⟩ := run_spec (H := H) hhs ops (init_ok (hs := hs) hnum) rfl (by simpa using hw)
  obtain ⟨v, e2, hvB, le, atl⟩ := estimate_spec (H := H) ok (by simpa using hw) (by omega) k
  obtain ⟨okd, hfd, md⟩ := decay_spec (H := H) ok
  obtain ⟨w, e3, _, le3, atl3⟩ := estimate_spec (H := H) okd (by simpa using hw) (by omega) k
  have h1 : v / 2 ≤ w := le3 _ (md k v atl)
  refine ⟨f, v, e, e2, ?_⟩
  have h2 : w ≤ v / 2 := by
    -- the minimum is attained: if every counter halved is at least w, every counter is at least 2 w
    have : AtLeast H f k (2 * w) := by
      intro i hi
      have := atl3 i (by rw [hfd]; exact hi)
      have hd : (decay f).2.bf = f.bf.map (fun c => c >>> 1) ∧ (decay f).2.counterNum = f.counterNum := by
        unfold decay; rw [if_neg (by simp [ok.ready])]; exact ⟨rfl, rfl⟩
      rw [hd.1, hd.2, ctr_decay] at this
      omega
    have := le _ this
    omega
  rw [e3]
  have : w = v / 2 := Nat.le_antisymm h2 h1
  subst this
  simp

/-- three keys, colliding hash functions, a decay in the middle -/
example : ∃ f v, run (κ := Nat) ⟨fun k => k, fun k => k + 1⟩ (init 5 2) [.add 1, .add 1, .add 2, .add 1, .decay, .add 1] = .ok f ∧
    estimate ⟨fun k => k, fun k => k + 1⟩ f 1 = .ok (v, f) ∧ ((2 : Nat) : Int) ≤ v :=
  C40_neverUnderestimates _ 5 2 (by decide) (by decide) _ (by decide) 1

/-- Despite its name the sketch is not minimal-increment, and even a lone key is over-counted when two of its hash functions
meet: one add, estimate 2 (minimalIncrementCBF.c:118-123: the increment is outside the test, and runs once per hash function). -/
theorem C40_loneKeyExact_fails : ¬ ∀ (H : Hashes Nat) (num hs : Nat), 0 < num → 0 < hs →
    ∀ k, (run H (init num hs) [.add k] >>= fun f => estimate H f k).map (·.1) = .ok 1 := by
  intro h
  have := h ⟨fun k => k, fun _ => 0⟩ 4 2 (by decide) (by decide) 3
  revert this; decide

end Verif.Props
