import Verif.Spec.NextAccess
import Verif.Spec.Reader
import Verif.Base.Types
/-!
# What converting a trace to the oracleGeneral format should produce
-/

namespace Verif.Spec.Conv
open Verif Verif.Reader Verif.Spec Verif.Spec.Reader

/-- time, object and size can be represented in the output format -/
def Representable (v : Fld → Int) : Prop := Fits [⟨.time, 4, false⟩, ⟨.id, 8, false⟩, ⟨.size, 4, false⟩] v

/-- the size `z` the object of request `i` had when it was first requested -/
def FirstSize (src : List (Fld → Int)) (v : Fld → Int) (z : Int) : Prop :=
  ∃ (j : Nat) (w : Fld → Int), src[j]? = some w ∧ w .id = v .id ∧ w .size = z ∧ ∀ (m : Nat) (u : Fld → Int), m < j → src[m]? = some u → u .id ≠ v .id

/-- `recs` are the requests `src` with the number of the next request for the same object; if `keepSize`, each object keeps its first size -/
def Converted (keepSize : Bool) (src recs : List (Fld → Int)) : Prop :=
  recs.length = src.length ∧ ∀ (i : Nat) (v r : Fld → Int), src[i]? = some v → recs[i]? = some r →
    r .time = v .time ∧ r .id = v .id ∧ NextNumber (src.map (fun u => u .id)) i (r .next) ∧
    (if keepSize then FirstSize src v (r .size) else r .size = v .size)

/-- the requests of a trace as a reader shows them -/
def source (T : TraceFormat) (p : Params) (vs : List (Fld → Int)) : List (Fld → Int) := vs.map (fun v => shownSize p.ignoreSize (T.mean v))

/-- a request as a cache sees it -/
def asReq (q : Request) : Req := ⟨(q.vals .id).toNat, (q.vals .size).toNat, q.vals .next⟩

end Verif.Spec.Conv
