import Verif.Proof.PQCache
import Verif.Proof.Double
/-! # Size -/

namespace Verif.Size
open Verif Spec PQCache

theorem spec (cs md : Nat) : SBSpec algo (fun s => s.base) (fun s b => { s with base := b }) (Inv cs md) cs md :=
  PQCache.spec cs md key (PQCache.insert key) (SizeOk md) (fun _ h => h) (fun _ _ _ => rfl)

theorem strong (cs md : Nat) : SBStrong algo (fun s => s.base) (Inv cs md) cs md core :=
  (spec cs md).strong core (fun _ _ _ => rfl)

theorem toEvict_spec {cs md : Nat} {s : State} (h : Inv cs md s) (hne : s.base.tbl ≠ []) :
    ∃ id n s', toEvict s = some id ∧ evict s = .ok s' ∧ s.base.cached.Perm ((id, n) :: s'.base.cached) := by
  obtain ⟨s', o, k, h1, _, h3, _, _, h6, _⟩ := evict_spec h hne
  exact ⟨o.id, o.size, s', h6, h1, h3⟩

end Verif.Size
