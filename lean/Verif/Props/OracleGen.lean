import Verif.Proof.OracleGen
/-!
# C111: the generator of oracle traces
-/

namespace Verif.Props
open Verif Verif.Spec Verif.Spec.Oracle Verif.OracleGen
set_option maxRecDepth 20000

/-- C111: for a trace that ends with the request `last`, the generator writes the requests that are not empty, and `last`, in the order of the trace,
each with the position of the next request for the same object, the time to live filled in from later requests and every object with its first size, as asked for.
Missing: a last request that is empty is written all the same (`C111_emptyLast_fails_OracleGen`); sizes the records cannot store, and sizes from 2^31 in 64-bit records (`C111_largeObject_fails_OracleGen`);
one size per object in the Twitter records, which do not change sizes; Twitter traces that end with a store, where the generator writes out of bounds (`C111_lastStore_fails_OracleGen`);
turning stores that follow a miss into gets (`C111_fillBecomesGet_fails_OracleGen`); the empty trace. -/
theorem C111_written_OracleGen_partial (f : Format) (backfill oneSize : Bool) (rs : List Rq) (last : Rq) (hs : ∀ r ∈ rs ++ [last], Storable f r)
    (hsz : oneSize = true → f.field ≠ .keyVal) (hl : f.twr = true → ¬ Stores last) :
    ∃ out, OracleGen.run f backfill oneSize (rs ++ [last]) = .ok out ∧ Written f backfill oneSize (nonEmpty f rs ++ [last]) out :=
  run_ok hs hsz hl

/-- If the last request is not empty either, the output holds exactly the requests that are not empty. -/
theorem C111_nonEmpty_OracleGen_partial (f : Format) (backfill oneSize : Bool) (rs : List Rq) (last : Rq) (hs : ∀ r ∈ rs ++ [last], Storable f r)
    (hsz : oneSize = true → f.field ≠ .keyVal) (hl : f.twr = true → ¬ Stores last) (he : ¬ AsksNothing f last) :
    ∃ out, OracleGen.run f backfill oneSize (rs ++ [last]) = .ok out ∧ Written f backfill oneSize (nonEmpty f (rs ++ [last])) out := by
  obtain ⟨out, h1, h2⟩ := run_ok (bf := backfill) hs hsz hl
  refine ⟨out, h1, ?_⟩
  have : nonEmpty f (rs ++ [last]) = nonEmpty f rs ++ [last] := by simp [nonEmpty, he]
  rw [this]
  exact h2

/-- seven requests for three objects; one is empty, one changes the size of its object, one knows the time to live -/
def oracleGenDemo : List Rq := [⟨1, 10, 5, 0, 1, 0⟩, ⟨1, 20, 7, 0, 1, 0⟩, ⟨2, 30, 0, 0, 1, 0⟩, ⟨3, 10, 6, 0, 1, 60⟩, ⟨4, 30, 2, 0, 1, 0⟩, ⟨5, 20, 7, 0, 1, 0⟩, ⟨6, 10, 5, 0, 1, 0⟩]

/-- The hypotheses are met, and this is what is written: object, size, time to live, next request. -/
example : (∀ r ∈ oracleGenDemo, Storable cf1 r) ∧ ¬ AsksNothing cf1 ⟨6, 10, 5, 0, 1, 0⟩ ∧
    (OracleGen.run cf1 true true oracleGenDemo).map (List.map fun e => (e.id, e.size, e.ttl, e.next)) =
      .ok [(10, 5, 60, 2), (20, 7, 0, 4), (10, 5, 60, 5), (30, 2, 0, -1), (20, 7, 0, -1), (10, 5, 0, -1)] := by decide +kernel

/-- a Twitter trace: a miss, the store that follows it, a get, a set, a get -/
def oracleGenTwr : List Rq := [⟨1, 10, 2, 0, 1, 0⟩, ⟨1, 10, 7, 5, 3, 100⟩, ⟨2, 10, 7, 5, 1, 0⟩, ⟨3, 10, 8, 6, 3, 50⟩, ⟨4, 10, 8, 6, 1, 0⟩]

example : (∀ r ∈ oracleGenTwr, Storable twrNS r) ∧ ¬ Stores ⟨4, 10, 8, 6, 1, 0⟩ ∧
    (OracleGen.run twrNS true false oracleGenTwr).map (List.map fun e => (e.id, e.size, e.op, e.ttl, e.next)) =
      .ok [(10, 7, 3, 100, 1), (10, 7, 1, 50, -1), (10, 8, 3, 50, 3), (10, 8, 1, 0, -1)] :=
  ⟨by decide +kernel, by unfold Stores; decide, by decide +kernel⟩

/-- C111 fails when the last request is empty: it is written, because the test is made only for the requests above it. -/
theorem C111_emptyLast_fails_OracleGen : ∃ (trace : List Rq) (out : List Ent), (∀ r ∈ trace, Storable general r) ∧ OracleGen.run general false true trace = .ok out ∧
    out.length ≠ (nonEmpty general trace).length :=
  ⟨[⟨1, 10, 5, 0, 1, 0⟩, ⟨2, 20, 0, 0, 1, 0⟩], [⟨1, 10, 5, 0, 1, 0, -1⟩, ⟨2, 20, 0, 0, 1, 0, -1⟩], by decide, by decide +kernel, by decide⟩

/-- C111 fails for objects of 2^31 bytes and more in the records with 64-bit sizes: from the second request on the size has gone through an `int`, and becomes almost 2^64. -/
theorem C111_largeObject_fails_OracleGen : ∃ (r : Rq), r.size = 2147483648 ∧
    (OracleGen.run cf1 false true [r, r]).map (List.map Ent.size) = .ok [2147483648, 18446744071562067968] :=
  ⟨⟨1, 10, 2147483648, 0, 1, 0⟩, rfl, by decide +kernel⟩

/-- C111 fails for Twitter traces that end with a store after a miss: the bit of the request is set one position too far, beyond the end. -/
theorem C111_lastStore_fails_OracleGen : OracleGen.run twrNS true false [⟨1, 10, 2, 0, 1, 0⟩, ⟨1, 10, 7, 5, 3, 100⟩] = .error .outOfBounds := by decide +kernel

/-- C111: the generator means to turn the store that follows a miss into a get, so that the output contains one request for the pair. It does not: the operation written is the one of the trace, whatever the trace. -/
theorem C111_fillBecomesGet_fails_OracleGen (rs : List Rq) (last : Rq) (hl : ¬ Stores last) :
    ∃ out, OracleGen.run twrNS true false (rs ++ [last]) = .ok out ∧ out.map Ent.op = (nonEmpty twrNS rs ++ [last]).map Rq.op := by
  obtain ⟨out, h1, h2, h3⟩ := C111_written_OracleGen_partial twrNS true false rs last (fun r _ => trivial) (fun h => by cases h) (fun _ => hl)
  refine ⟨out, h1, ?_⟩
  apply List.ext_getElem?
  intro i
  rw [List.getElem?_map, List.getElem?_map]
  by_cases hi : i < out.length
  · have hi' : i < (nonEmpty twrNS rs ++ [last]).length := by rw [← h2]; exact hi
    rw [List.getElem?_eq_getElem hi, List.getElem?_eq_getElem hi', Option.map_some, Option.map_some]
    exact congrArg some (h3 i _ _ (List.getElem?_eq_getElem hi') (List.getElem?_eq_getElem hi)).2.2.1
  · rw [List.getElem?_eq_none (by omega), List.getElem?_eq_none (by omega)]
    rfl

/-- there is such a store in the example: the second request, a set right after the miss -/
example : Stores ⟨1, 10, 7, 5, 3, 100⟩ ∧ ¬ Stores ⟨4, 10, 8, 6, 1, 0⟩ := by unfold Stores; decide

end Verif.Props
