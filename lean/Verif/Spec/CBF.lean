import Verif.Data.CBF
/-! What a counting sketch promises. -/

namespace Verif.Spec.CBF
open Verif.CBF

/-- the number of `add` calls among the calls -/
def adds {κ : Type} : List (SOp κ) → Nat
  | [] => 0
  | .add _ :: ops => adds ops + 1
  | _ :: ops => adds ops

/-- the true (decayed) count of a key: one more at each `add` of the key, halved (rounding down) at each `decay` -/
def count {κ : Type} [DecidableEq κ] (k : κ) (n : Nat) : List (SOp κ) → Nat
  | [] => n
  | .add k' :: ops => count k (if k' = k then n + 1 else n) ops
  | .decay :: ops => count k (n / 2) ops
  | .estimate _ :: ops => count k n ops

end Verif.Spec.CBF
