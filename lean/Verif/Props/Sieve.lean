import Verif.Proof.Sieve
import Verif.Props.Demo
/-!
# Properties of Sieve (libCacheSim/cache/eviction/Sieve.c)

The statements are those of `Verif/Spec/Cache.lean`; here they are instantiated for Sieve and proved.  They hold for
every cache size, every metadata size, every admission policy and every sequence of client calls.
-/

namespace Verif.Props
open Verif Verif.Spec
set_option linter.unusedVariables false

/-- what Sieve has cached -/
abbrev Sieve_cached (s : Sieve.State) : Contents := s.base.cached

/-- The state after the demo calls on a cache of 10 bytes. -/
def Sieve_demo : Sieve.State :=
  match Sieve.algo.run (Sieve.init 10 0 .none) demo with
  | .ok p => p.2
  | .error _ => Sieve.init 10 0 .none

/-- The demo calls are permitted, run, and hit/miss as listed; the state they lead to is `Sieve_demo`. -/
theorem Sieve_demo_reached : Reaches Sieve.algo (Sieve.init 10 0 .none) demo
    [false, false, true, false, false, true, true, false, false, true, false, true, false, false, true, true, true] Sieve_demo ∧
    Sieve_cached Sieve_demo = [(8, 1), (6, 1), (5, 1), (1, 4)] := ⟨rfl, by decide⟩

theorem C01_capacity_Sieve (cs md : Nat) (adm : Adm) :
    Capacity Sieve.algo (Sieve.init cs md adm) (Calls {} (SizeOk md)) cs :=
  (Sieve.strong cs md).capacity (Sieve.inv_init cs md adm)

example : Sieve.algo.occ Sieve_demo > 0 := by decide

theorem C02_accounting_Sieve (cs md : Nat) (adm : Adm) :
    Accounting Sieve.algo Sieve_cached (Sieve.init cs md adm) (Calls {} (SizeOk md)) md :=
  (Sieve.strong cs md).accounting (Sieve.inv_init cs md adm)

example : Sieve.algo.nObj Sieve_demo > 1 := by decide

theorem C03_hitIffCached_Sieve (cs md : Nat) (adm : Adm) :
    HitIffCached Sieve.algo Sieve_cached (Sieve.init cs md adm) (Calls {} (SizeOk md)) :=
  (Sieve.strong cs md).hitIffCached (Sieve.inv_init cs md adm)

theorem C04_noPhantom_Sieve (cs md : Nat) (adm : Adm) :
    NoPhantom Sieve.algo Sieve_cached (Sieve.init cs md adm) (Calls {} (SizeOk md)) :=
  (Sieve.strong cs md).noPhantom (Sieve.inv_init cs md adm) rfl

theorem C04_addsOnlyRequested_Sieve (cs md : Nat) (adm : Adm) :
    AddsOnlyRequested Sieve.algo Sieve_cached (Sieve.init cs md adm) (Calls {} (SizeOk md)) :=
  (Sieve.strong cs md).addsOnlyRequested (Sieve.inv_init cs md adm)

theorem C05_admittedMissCached_Sieve (cs md : Nat) (adm : Adm) :
    AdmittedMissCached Sieve.algo Sieve_cached (fun s r => admitsBase s.base r) (Sieve.init cs md adm)
      (Calls {} (SizeOk md)) :=
  (Sieve.strong cs md).admittedMissCached (Sieve.inv_init cs md adm)

/-- an admitted miss that needs several evictions -/
example : (7 ∉ (Sieve_cached Sieve_demo).ids ∧ admitsBase Sieve_demo.base ⟨7, 9, -2⟩ = true) := by decide

theorem C06_evictOnDemand_Sieve (cs md : Nat) (adm : Adm) :
    EvictOnDemand Sieve.algo Sieve_cached (Sieve.init cs md adm) (Calls {} (SizeOk md)) cs md :=
  (Sieve.strong cs md).evictOnDemand (Sieve.inv_init cs md adm)

theorem C07_removeExact_Sieve (cs md : Nat) (adm : Adm) :
    RemoveExact Sieve.algo Sieve_cached (Sieve.init cs md adm) (Calls {} (SizeOk md)) :=
  (Sieve.spec cs md).removeExact (Sieve.strong cs md) (Sieve.inv_init cs md adm)

/-- `core` is the whole state but the request counter and the admission policy's state. -/
theorem C08_rejectQuiet_Sieve (cs md : Nat) (adm : Adm) :
    RejectQuiet Sieve.algo Sieve_cached (fun s r => admitsBase s.base r) Sieve.core (Sieve.init cs md adm)
      (Calls {} (SizeOk md)) :=
  (Sieve.strong cs md).rejectQuiet (Sieve.inv_init cs md adm)

/-- a rejected request -/
example : (7 ∉ (Sieve_cached Sieve_demo).ids ∧ admitsBase Sieve_demo.base ⟨7, 11, -2⟩ = false) := by decide

theorem C09_safe_Sieve (cs md : Nat) (adm : Adm) :
    Safe Sieve.algo (Sieve.init cs md adm) (Calls {} (SizeOk md)) :=
  (Sieve.strong cs md).safe (Sieve.inv_init cs md adm)

theorem C09_evictsOne_Sieve (cs md : Nat) (adm : Adm) :
    EvictsOne Sieve.algo Sieve_cached (Sieve.init cs md adm) (Calls {} (SizeOk md)) :=
  (Sieve.spec cs md).evictsOne (Sieve.strong cs md) (Sieve.inv_init cs md adm) rfl

theorem C10_toEvictPredicts_Sieve (cs md : Nat) (adm : Adm) :
    ToEvictPredicts Sieve.algo Sieve_cached Sieve.toEvict (Sieve.init cs md adm) (Calls {} (SizeOk md)) :=
  (Sieve.spec cs md).toEvictPredicts (Sieve.strong cs md) (Sieve.inv_init cs md adm) Sieve.toEvict
    (fun hi hne _ => Sieve.toEvict_spec hi hne)

example : Sieve_cached Sieve_demo ≠ [] ∧ Sieve.toEvict Sieve_demo = some 5 := by decide

/-- C15: Sieve is the textbook SIEVE; `Sieve.view` splits the cached objects (oldest first) at the hand. -/
theorem C15_sieve_Sieve (cs md : Nat) (adm : Adm) :
    Follows Sieve.algo (Sieve.init cs md adm) (Calls {} (SizeOk md)) sieve cs md ⟨⟨[], []⟩, adm⟩
      (fun s => ⟨Sieve.view s, s.base.adm⟩) :=
  Sim.follows (Sieve.spec cs md) (Sieve.sim cs md) (Sieve.inv_init cs md adm)

example : Sieve.view Sieve_demo = ⟨[⟨1, 4, 1⟩], [⟨5, 1, 0⟩, ⟨6, 1, 1⟩, ⟨8, 1, 0⟩]⟩ := by decide

end Verif.Props
