import Verif.Spec.Cache
/-!
# C25: what "the size is stored faithfully" means
-/

namespace Verif.Spec
open Verif

/-- C25: every cached object has the very size of an earlier request that could insert it. -/
def SizesFaithful {σ : Type} (A : Algo σ) (cached : σ → Contents) (s0 : σ) (okOp : Op → Prop) : Prop :=
  ∀ ops out s, (∀ op ∈ ops, okOp op) → Reaches A s0 ops out s →
    ∀ x ∈ cached s, ∃ op ∈ ops, ∃ r, insertedBy op = some r ∧ r.id = x.1 ∧ r.size = x.2

/-- Requests for objects smaller than 4 GiB (that also satisfy `ok`). -/
def Under4G (ok : Req → Prop) (r : Req) : Prop := ok r ∧ r.size < 2 ^ 32

end Verif.Spec
