import Verif.Proof.OneHit
/-!
# C104: one-hit wonders

`traceOneHit` reports what share of the objects has been seen only once, at each hundredth new object.
-/

namespace Verif.Props
open Verif Verif.Spec Verif.OneHit

/-- For every trace with at least 100 objects and fewer than 2^32 requests, there is a ratio for each hundred objects. Ratio `j` is that of the requests up to the one that brought object number
`100 (j + 1)`: the number of objects requested once so far over the number of objects so far. -/
theorem C104_ratios_OneHit_partial (trace : List Nat) (hl : trace.length < 2 ^ 32) (hd : 100 ≤ distinct trace) :
    ∃ ratios first last, oneHit trace = .ok (ratios, first, last) ∧ ratios.length = distinct trace / 100 ∧ ratios.head? = some first ∧ ratios.getLast? = some last ∧
      ∀ j, j < distinct trace / 100 → ∃ before new after, trace = before ++ [new] ++ after ∧ new ∉ before ∧ distinct (before ++ [new]) = 100 * (j + 1) ∧
        ratios[j]? = some (once (before ++ [new]), 100 * (j + 1)) := by
  obtain ⟨s, h1, h2⟩ := inv_loop trace [] init inv_init (by simpa using hl)
  rw [List.nil_append] at h2
  have hlen := h2.len
  have hpos : 0 < s.ratios.length := by omega
  refine ⟨s.ratios, s.ratios[0], s.ratios[s.ratios.length - 1], ?_, hlen, ?_, ?_, fun j hj => ?_⟩
  · unfold oneHit
    rw [h1, Res.bind_ok, List.getElem?_eq_getElem hpos, List.getElem?_eq_getElem (show s.ratios.length - 1 < s.ratios.length by omega)]
  · rw [List.head?_eq_getElem?, List.getElem?_eq_getElem hpos]
  · rw [List.getLast?_eq_getElem?, List.getElem?_eq_getElem]
  · obtain ⟨q, x, ⟨r, a⟩, b, c, d⟩ := h2.vals j (by omega)
    exact ⟨q, x, r, a.symm, b, c, d⟩

/-- 250 objects, those with even numbers requested twice in a row. -/
def oneHitDemo : List Nat := (List.range 250).flatMap fun i => if i % 2 = 0 then [i, i] else [i]

example : oneHitDemo.length < 2 ^ 32 ∧ 100 ≤ distinct oneHitDemo := by decide +kernel
example : oneHit oneHitDemo = .ok ([(50, 100), (100, 200)], (50, 100), (100, 200)) := by decide +kernel

/-- A trace with fewer than 100 objects makes the tool read outside the (empty) list of ratios. -/
theorem C104_fewObjects_fails_OneHit : ∀ trace : List Nat, trace.length < 2 ^ 32 → distinct trace < 100 → oneHit trace = .error .outOfBounds := by
  intro trace hl hd
  obtain ⟨s, h1, h2⟩ := inv_loop trace [] init inv_init (by simpa using hl)
  rw [List.nil_append] at h2
  have hlen : s.ratios.length = 0 := by rw [h2.len]; omega
  unfold oneHit
  rw [h1, Res.bind_ok, List.length_eq_zero_iff.1 hlen]
  rfl

example : distinct [3, 3, 5] < 100 := by decide

theorem step_same (f o : Nat) (rest : List Nat) :
    loop ⟨[(0, f)], [], 0, o⟩ (0 :: rest) = loop ⟨[(0, (f + 1) % 2 ^ 32)], [], 0, if (f + 1) % 2 ^ 32 = 2 then (o + 2 ^ 64 - 1) % 2 ^ 64 else o⟩ rest := by
  have e : count ⟨[(0, f)], [], 0, o⟩ 0 = ⟨[(0, (f + 1) % 2 ^ 32)], [], 0, if (f + 1) % 2 ^ 32 = 2 then (o + 2 ^ 64 - 1) % 2 ^ 64 else o⟩ := by
    simp only [count, lookup, bump, if_true]
  conv_lhs => unfold loop
  rw [e, record, if_neg (by simp), Res.bind_ok]

theorem steps_same (o : Nat) (rest : List Nat) : ∀ n f : Nat, 2 ≤ f → f + n < 2 ^ 32 → loop ⟨[(0, f)], [], 0, o⟩ (List.replicate n 0 ++ rest) = loop ⟨[(0, f + n)], [], 0, o⟩ rest
  | 0, f, _, _ => by rw [List.replicate_zero, List.nil_append, Nat.add_zero]
  | n + 1, f, h2, h => by
    rw [List.replicate_succ, List.cons_append, step_same, Nat.mod_eq_of_lt (by omega), if_neg (by omega), steps_same o rest n (f + 1) (by omega) (by omega)]
    congr 4
    omega

/-- The bound on the number of requests is needed: an object requested 2^32 + 2 times is taken away from the objects seen once a second time. With that object and 99 others, each requested once, 98
are reported. -/
theorem C104_counter_fails_OneHit : ∃ trace : List Nat, distinct trace = 100 ∧ once trace = 99 ∧ oneHit trace = .ok ([(98, 100)], (98, 100), (98, 100)) := by
  let others := (List.range 99).map (· + 1)
  refine ⟨0 :: 0 :: (List.replicate (2 ^ 32 - 3) 0 ++ 0 :: 0 :: 0 :: others), ?_, ?_, ?_⟩
  · have e : (0 :: 0 :: (List.replicate (2 ^ 32 - 3) 0 ++ 0 :: 0 :: 0 :: others)).toFinset = (0 :: others).toFinset := by
      ext x
      simp only [List.mem_toFinset, List.mem_cons, List.mem_append, List.mem_replicate]
      tauto
    unfold distinct
    rw [e]
    decide +kernel
  · have e : ((0 :: 0 :: (List.replicate (2 ^ 32 - 3) 0 ++ 0 :: 0 :: 0 :: others)).toFinset.filter fun x => (0 :: 0 :: (List.replicate (2 ^ 32 - 3) 0 ++ 0 :: 0 :: 0 :: others)).count x = 1) =
        others.toFinset.filter fun x => others.count x = 1 := by
      ext x
      simp only [Finset.mem_filter, List.mem_toFinset, List.mem_cons, List.mem_append, List.mem_replicate, List.count_cons, List.count_append, List.count_replicate]
      by_cases hx : x = 0
      · subst hx
        have : (0 : Nat) ∉ others := by simp [others]
        simp [this]
      · have hx' : ¬ (0 : Nat) = x := fun h => hx h.symm
        simp [hx, hx']
    unfold once
    rw [e]
    decide +kernel
  · have e0 : loop init (0 :: 0 :: (List.replicate (2 ^ 32 - 3) 0 ++ 0 :: 0 :: 0 :: others)) = loop ⟨[(0, 2)], [], 0, 0⟩ (List.replicate (2 ^ 32 - 3) 0 ++ 0 :: 0 :: 0 :: others) := by
      generalize List.replicate (2 ^ 32 - 3) 0 ++ 0 :: 0 :: 0 :: others = rest
      have e1 : loop init (0 :: 0 :: rest) = loop ⟨[(0, 1)], [], 0, 1⟩ (0 :: rest) := by
        conv_lhs => unfold loop
        have : record (count init 0) = .ok ⟨[(0, 1)], [], 0, 1⟩ := by decide +kernel
        rw [this, Res.bind_ok]
      rw [e1, step_same]
      rfl
    have e2 : loop ⟨[(0, 2)], [], 0, 0⟩ (List.replicate (2 ^ 32 - 3) 0 ++ 0 :: 0 :: 0 :: others) = loop ⟨[(0, 2)], [], 0, 2 ^ 64 - 1⟩ others := by
      rw [steps_same 0 _ (2 ^ 32 - 3) 2 (by omega) (by omega), step_same, step_same, step_same]
      have a1 : (2 + (2 ^ 32 - 3) + 1) % 2 ^ 32 = 0 := by decide +kernel
      rw [a1]
      have a2 : (0 + 1) % 2 ^ 32 = 1 := by decide +kernel
      rw [a2]
      have a3 : (1 + 1) % 2 ^ 32 = 2 := by decide +kernel
      rw [a3]
      simp only [if_true]
      rfl
    have e3 : loop ⟨[(0, 2)], [], 0, 2 ^ 64 - 1⟩ others = .ok ⟨(0, 2) :: others.map fun x => (x, 1), [(98, 100)], 100, 98⟩ := by decide +kernel
    unfold oneHit
    rw [e0, e2, e3]
    rfl

end Verif.Props
