import Verif.Proof.LRU
import Verif.Props.Demo
/-!
# Properties of FIFO (libCacheSim/cache/eviction/FIFO.c)

The statements are those of `Verif/Spec/Cache.lean`; here they are instantiated for FIFO and proved.  They hold for
every cache size, every metadata size, every admission policy and every sequence of client calls.
-/

namespace Verif.Props
open Verif Verif.Spec
set_option linter.unusedVariables false

/-- what FIFO has cached -/
abbrev FIFO_cached (s : FIFO.State) : Contents := s.base.cached

/-- The state after the demo calls on a cache of 10 bytes. -/
def FIFO_demo : FIFO.State :=
  match FIFO.algo.run (FIFO.init 10 0 .none) demo with
  | .ok p => p.2
  | .error _ => FIFO.init 10 0 .none

/-- The demo calls are permitted, run, and hit/miss as listed; the state they lead to is `FIFO_demo`. -/
theorem FIFO_demo_reached : Reaches FIFO.algo (FIFO.init 10 0 .none) demo
    [false, false, true, false, false, true, false, false, true, true, false, false, false, false, true, true, true] FIFO_demo ∧
    FIFO_cached FIFO_demo = [(8, 1), (6, 1), (5, 1), (1, 4)] := ⟨rfl, by decide⟩

theorem C01_capacity_FIFO (cs md : Nat) (adm : Adm) :
    Capacity FIFO.algo (FIFO.init cs md adm) (Calls {} (SizeOk md)) cs :=
  (FIFO.strong cs md).capacity (QInv.init cs md adm)

example : FIFO.algo.occ FIFO_demo > 0 := by decide

theorem C02_accounting_FIFO (cs md : Nat) (adm : Adm) :
    Accounting FIFO.algo FIFO_cached (FIFO.init cs md adm) (Calls {} (SizeOk md)) md :=
  (FIFO.strong cs md).accounting (QInv.init cs md adm)

example : FIFO.algo.nObj FIFO_demo > 1 := by decide

theorem C03_hitIffCached_FIFO (cs md : Nat) (adm : Adm) :
    HitIffCached FIFO.algo FIFO_cached (FIFO.init cs md adm) (Calls {} (SizeOk md)) :=
  (FIFO.strong cs md).hitIffCached (QInv.init cs md adm)

theorem C04_noPhantom_FIFO (cs md : Nat) (adm : Adm) :
    NoPhantom FIFO.algo FIFO_cached (FIFO.init cs md adm) (Calls {} (SizeOk md)) :=
  (FIFO.strong cs md).noPhantom (QInv.init cs md adm) rfl

theorem C04_addsOnlyRequested_FIFO (cs md : Nat) (adm : Adm) :
    AddsOnlyRequested FIFO.algo FIFO_cached (FIFO.init cs md adm) (Calls {} (SizeOk md)) :=
  (FIFO.strong cs md).addsOnlyRequested (QInv.init cs md adm)

theorem C05_admittedMissCached_FIFO (cs md : Nat) (adm : Adm) :
    AdmittedMissCached FIFO.algo FIFO_cached (fun s r => admitsBase s.base r) (FIFO.init cs md adm)
      (Calls {} (SizeOk md)) :=
  (FIFO.strong cs md).admittedMissCached (QInv.init cs md adm)

/-- an admitted miss that needs several evictions -/
example : (7 ∉ (FIFO_cached FIFO_demo).ids ∧ admitsBase FIFO_demo.base ⟨7, 9, -2⟩ = true) := by decide

theorem C06_evictOnDemand_FIFO (cs md : Nat) (adm : Adm) :
    EvictOnDemand FIFO.algo FIFO_cached (FIFO.init cs md adm) (Calls {} (SizeOk md)) cs md :=
  (FIFO.strong cs md).evictOnDemand (QInv.init cs md adm)

theorem C07_removeExact_FIFO (cs md : Nat) (adm : Adm) :
    RemoveExact FIFO.algo FIFO_cached (FIFO.init cs md adm) (Calls {} (SizeOk md)) :=
  (FIFO.spec cs md).removeExact (FIFO.strong cs md) (QInv.init cs md adm)

/-- `core` is the whole state but the request counter and the admission policy's state. -/
theorem C08_rejectQuiet_FIFO (cs md : Nat) (adm : Adm) :
    RejectQuiet FIFO.algo FIFO_cached (fun s r => admitsBase s.base r) QState.core (FIFO.init cs md adm)
      (Calls {} (SizeOk md)) :=
  (FIFO.strong cs md).rejectQuiet (QInv.init cs md adm)

/-- a rejected request -/
example : (7 ∉ (FIFO_cached FIFO_demo).ids ∧ admitsBase FIFO_demo.base ⟨7, 11, -2⟩ = false) := by decide

theorem C09_safe_FIFO (cs md : Nat) (adm : Adm) :
    Safe FIFO.algo (FIFO.init cs md adm) (Calls {} (SizeOk md)) :=
  (FIFO.strong cs md).safe (QInv.init cs md adm)

theorem C09_evictsOne_FIFO (cs md : Nat) (adm : Adm) :
    EvictsOne FIFO.algo FIFO_cached (FIFO.init cs md adm) (Calls {} (SizeOk md)) :=
  (FIFO.spec cs md).evictsOne (FIFO.strong cs md) (QInv.init cs md adm) rfl

theorem C10_toEvictPredicts_FIFO (cs md : Nat) (adm : Adm) :
    ToEvictPredicts FIFO.algo FIFO_cached FIFO.toEvict (FIFO.init cs md adm) (Calls {} (SizeOk md)) :=
  (FIFO.spec cs md).toEvictPredicts (FIFO.strong cs md) (QInv.init cs md adm) FIFO.toEvict
    (fun hi hne _ => FIFO.toEvict_spec hi hne)

example : FIFO_cached FIFO_demo ≠ [] ∧ FIFO.toEvict FIFO_demo = some 1 := by decide

/-- C13: FIFO is the textbook FIFO. -/
theorem C13_fifo_FIFO (cs md : Nat) (adm : Adm) :
    Follows FIFO.algo (FIFO.init cs md adm) (Calls {} (SizeOk md)) fifo cs md ⟨[], adm⟩
      (fun s => ⟨QState.order s, s.base.adm⟩) :=
  Sim.follows (FIFO.spec cs md) (FIFO.sim cs md) (QInv.init cs md adm)

example : QState.order FIFO_demo = [(8, 1), (6, 1), (5, 1), (1, 4)] := by decide

end Verif.Props
