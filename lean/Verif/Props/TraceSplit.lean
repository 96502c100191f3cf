import Verif.Proof.TraceSplit
/-!
# C112: splitting a trace by tenant
-/

namespace Verif.Props
open Verif Verif.Spec.Split Verif.TraceSplit
set_option maxRecDepth 20000

/-- C112 for the CF1 format: every tenant with at least as many requests as the buffer holds gets a file with exactly its requests, in order, with times relative to the first request of the trace; the others get none.
Missing: the tenants with fewer requests (`C112_smallTenant_fails_TraceSplit`); times that go back before the first request, or a first request at time 2^32 - 1. -/
theorem C112_requestsOfTenant_TraceSplit_partial (B t0 : Nat) (hB : 0 < B) (rs : List Rec) (ht : Times t0 rs) (t : Nat) :
    split B (rs.map readCF1) t = if (ofTenant t0 rs t).length < B then none else some (ofTenant t0 rs t) := by
  refine split_reader hB readCF1 id (fun _ _ h => h) rs (fun r _ => ?_) ht t
  show TReq.mk _ _ _ _ = _
  congr 1
  simp only [u32]
  split <;> omega

/-- C112 for the Akamai format: the same, but the files are numbered with whatever was in the upper half of the field. Missing also: the number of the tenant as the name of the file (`C112_fileName_fails_TraceSplit`). -/
theorem C112_requestsOfTenantAkamai_TraceSplit_partial (B t0 junk : Nat) (hB : 0 < B) (rs : List Rec) (hs : ∀ r ∈ rs, r.size < 4294967296) (ht : Times t0 rs) (t : Nat) :
    split B (rs.map (readAkamai junk)) (junk * 65536 + t) = if (ofTenant t0 rs t).length < B then none else some (ofTenant t0 rs t) := by
  refine split_reader hB (readAkamai junk) (fun t => junk * 65536 + t) (fun a b h => by omega) rs (fun r hr => ?_) ht t
  show TReq.mk _ _ _ _ = _
  have := hs r hr
  congr 1
  omega

/-- five requests of two tenants -/
def splitDemo : List Rec := [⟨100, 1, 5, 7⟩, ⟨101, 2, 6, 8⟩, ⟨103, 1, 5, 7⟩, ⟨103, 3, 9, 7⟩, ⟨110, 2, 6, 8⟩]

example : Times 100 splitDemo ∧ split 2 (splitDemo.map readCF1) 7 = some [⟨0, 1, 5⟩, ⟨3, 1, 5⟩, ⟨3, 3, 9⟩] ∧ split 2 (splitDemo.map readCF1) 8 = some [⟨1, 2, 6⟩, ⟨10, 2, 6⟩] ∧
    split 2 (splitDemo.map readCF1) 9 = none := by unfold Times; decide

/-- C112 fails for tenants with fewer requests than the buffer holds (one million): their requests are thrown away without a message. -/
theorem C112_smallTenant_fails_TraceSplit (rs : List Rec) (t0 : Nat) (ht : Times t0 rs) (hl : rs.length < 1000000) (t : Nat) : split 1000000 (rs.map readCF1) t = none := by
  rw [C112_requestsOfTenant_TraceSplit_partial 1000000 t0 (by decide) rs ht t, if_pos]
  unfold ofTenant
  rw [List.length_map]
  exact Nat.lt_of_le_of_lt (List.length_filter_le _ _) hl

/-- a trace to which this applies -/
example : Times 100 splitDemo ∧ splitDemo.length < 1000000 ∧ ofTenant 100 splitDemo 7 ≠ [] := by unfold Times; decide

/-- C112 fails for the names of the files in the Akamai format: only 16 bits of the field are read. -/
theorem C112_fileName_fails_TraceSplit : ∃ junk, split 2 (splitDemo.map (readAkamai junk)) 7 = none ∧ split 2 (splitDemo.map (readAkamai junk)) 65543 ≠ none := ⟨1, by decide⟩

end Verif.Props
