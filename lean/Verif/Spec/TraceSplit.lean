import Verif.Tools.TraceSplit
/-!
# What splitting a trace by tenant should produce
-/

namespace Verif.Spec.Split
open Verif Verif.TraceSplit

/-- the requests of a tenant, in the order of the trace, with times from `t0` on and sizes of at most 2^32 - 1 -/
def ofTenant (t0 : Nat) (rs : List Rec) (t : Nat) : List Out := (rs.filter fun r => r.tenant = t).map fun r => ⟨r.ts - t0, r.id, min r.size 4294967295⟩

/-- times start with `t0`, do not go below it and fit the field -/
def Times (t0 : Nat) (rs : List Rec) : Prop := (∀ r, rs.head? = some r → r.ts = t0) ∧ ∀ r ∈ rs, t0 ≤ r.ts ∧ r.ts < 4294967295

end Verif.Spec.Split
