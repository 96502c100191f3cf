import Verif.Base.Res
/-!
# traceOneHit

`bin/customized/SOSP23/oneHit/oneHit.cpp`: the share of objects seen only once, each time that 100 more objects have been seen. The hash map is an association list. A ratio is kept as its numerator and
denominator.
-/

namespace Verif.OneHit
open Verif

/-- The variables of cal_one_hit (oneHit.cpp:22-29). -/
structure State where
  freq : List (Nat × Nat)
  ratios : List (Nat × Nat)
  lastSize : Nat
  oneHit : Nat
deriving DecidableEq, Repr

/-- oneHit.cpp:22-29. -/
def init : State := ⟨[], [], 0, 0⟩

/-- `freq_map.find` (oneHit.cpp:32). -/
def lookup (id : Nat) : List (Nat × Nat) → Option Nat
  | [] => none
  | (k, f) :: l => if k = id then some f else lookup id l

/-- `freq_map[obj_id] += 1` on a 32-bit counter (oneHit.cpp:36). -/
def bump (id : Nat) : List (Nat × Nat) → List (Nat × Nat)
  | [] => []
  | (k, f) :: l => if k = id then (k, (f + 1) % 2 ^ 32) :: l else (k, f) :: bump id l

/-- Counting a request (oneHit.cpp:32-40); `n_one_hit` has 64 bits. -/
def count (s : State) (id : Nat) : State :=
  match lookup id s.freq with
  | none => { s with freq := s.freq ++ [(id, 1)], oneHit := (s.oneHit + 1) % 2 ^ 64 }
  | some f => { s with freq := bump id s.freq, oneHit := if (f + 1) % 2 ^ 32 = 2 then (s.oneHit + 2 ^ 64 - 1) % 2 ^ 64 else s.oneHit }

/-- Taking the ratio (oneHit.cpp:42-49). -/
def record (s : State) : Res State :=
  if s.freq.length % 100 = 0 ∧ s.freq.length ≠ s.lastSize then
    if s.ratios.length + 1 ≠ s.freq.length / 100 then .error .abort
    else .ok { s with ratios := s.ratios ++ [(s.oneHit, s.freq.length)], lastSize := s.freq.length }
  else .ok s

/-- The loop over the trace (oneHit.cpp:31-52). -/
def loop (s : State) : List Nat → Res State
  | [] => .ok s
  | id :: ids => do
    let s' ← record (count s id)
    loop s' ids

/-- cal_one_hit (oneHit.cpp:21-66): the ratios written, and the first and the last one, which are printed. -/
def oneHit (trace : List Nat) : Res (List (Nat × Nat) × (Nat × Nat) × (Nat × Nat)) := do
  let s ← loop init trace
  match s.ratios[0]?, s.ratios[s.ratios.length - 1]? with
  | some a, some b => .ok (s.ratios, a, b)
  | _, _ => .error .outOfBounds

end Verif.OneHit
