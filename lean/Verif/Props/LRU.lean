import Verif.Proof.LRU
import Verif.Props.Demo
/-!
# Properties of LRU (libCacheSim/cache/eviction/LRU.c)

The statements are those of `Verif/Spec/Cache.lean`; here they are instantiated for LRU and proved.  They hold for
every cache size, every metadata size, every admission policy and every sequence of client calls.
-/

namespace Verif.Props
open Verif Verif.Spec
set_option linter.unusedVariables false

/-- what LRU has cached -/
abbrev LRU_cached (s : LRU.State) : Contents := s.base.cached

/-- The state after the demo calls on a cache of 10 bytes. -/
def LRU_demo : LRU.State :=
  match LRU.algo.run (LRU.init 10 0 .none) demo with
  | .ok p => p.2
  | .error _ => LRU.init 10 0 .none

/-- The demo calls are permitted, run, and hit/miss as listed; the state they lead to is `LRU_demo`. -/
theorem LRU_demo_reached : Reaches LRU.algo (LRU.init 10 0 .none) demo
    [false, false, true, false, false, true, true, false, false, true, false, true, false, false, true, true, true] LRU_demo ∧
    LRU_cached LRU_demo = [(8, 1), (6, 1), (5, 1), (1, 4)] := ⟨rfl, by decide⟩

theorem C01_capacity_LRU (cs md : Nat) (adm : Adm) :
    Capacity LRU.algo (LRU.init cs md adm) (Calls {} (SizeOk md)) cs :=
  (LRU.strong cs md).capacity (QInv.init cs md adm)

example : LRU.algo.occ LRU_demo > 0 := by decide

theorem C02_accounting_LRU (cs md : Nat) (adm : Adm) :
    Accounting LRU.algo LRU_cached (LRU.init cs md adm) (Calls {} (SizeOk md)) md :=
  (LRU.strong cs md).accounting (QInv.init cs md adm)

example : LRU.algo.nObj LRU_demo > 1 := by decide

theorem C03_hitIffCached_LRU (cs md : Nat) (adm : Adm) :
    HitIffCached LRU.algo LRU_cached (LRU.init cs md adm) (Calls {} (SizeOk md)) :=
  (LRU.strong cs md).hitIffCached (QInv.init cs md adm)

theorem C04_noPhantom_LRU (cs md : Nat) (adm : Adm) :
    NoPhantom LRU.algo LRU_cached (LRU.init cs md adm) (Calls {} (SizeOk md)) :=
  (LRU.strong cs md).noPhantom (QInv.init cs md adm) rfl

theorem C04_addsOnlyRequested_LRU (cs md : Nat) (adm : Adm) :
    AddsOnlyRequested LRU.algo LRU_cached (LRU.init cs md adm) (Calls {} (SizeOk md)) :=
  (LRU.strong cs md).addsOnlyRequested (QInv.init cs md adm)

theorem C05_admittedMissCached_LRU (cs md : Nat) (adm : Adm) :
    AdmittedMissCached LRU.algo LRU_cached (fun s r => admitsBase s.base r) (LRU.init cs md adm)
      (Calls {} (SizeOk md)) :=
  (LRU.strong cs md).admittedMissCached (QInv.init cs md adm)

/-- an admitted miss that needs several evictions -/
example : (7 ∉ (LRU_cached LRU_demo).ids ∧ admitsBase LRU_demo.base ⟨7, 9, -2⟩ = true) := by decide

theorem C06_evictOnDemand_LRU (cs md : Nat) (adm : Adm) :
    EvictOnDemand LRU.algo LRU_cached (LRU.init cs md adm) (Calls {} (SizeOk md)) cs md :=
  (LRU.strong cs md).evictOnDemand (QInv.init cs md adm)

theorem C07_removeExact_LRU (cs md : Nat) (adm : Adm) :
    RemoveExact LRU.algo LRU_cached (LRU.init cs md adm) (Calls {} (SizeOk md)) :=
  (LRU.spec cs md).removeExact (LRU.strong cs md) (QInv.init cs md adm)

/-- `core` is the whole state but the request counter and the admission policy's state. -/
theorem C08_rejectQuiet_LRU (cs md : Nat) (adm : Adm) :
    RejectQuiet LRU.algo LRU_cached (fun s r => admitsBase s.base r) QState.core (LRU.init cs md adm)
      (Calls {} (SizeOk md)) :=
  (LRU.strong cs md).rejectQuiet (QInv.init cs md adm)

/-- a rejected request -/
example : (7 ∉ (LRU_cached LRU_demo).ids ∧ admitsBase LRU_demo.base ⟨7, 11, -2⟩ = false) := by decide

theorem C09_safe_LRU (cs md : Nat) (adm : Adm) :
    Safe LRU.algo (LRU.init cs md adm) (Calls {} (SizeOk md)) :=
  (LRU.strong cs md).safe (QInv.init cs md adm)

theorem C09_evictsOne_LRU (cs md : Nat) (adm : Adm) :
    EvictsOne LRU.algo LRU_cached (LRU.init cs md adm) (Calls {} (SizeOk md)) :=
  (LRU.spec cs md).evictsOne (LRU.strong cs md) (QInv.init cs md adm) rfl

theorem C10_toEvictPredicts_LRU (cs md : Nat) (adm : Adm) :
    ToEvictPredicts LRU.algo LRU_cached LRU.toEvict (LRU.init cs md adm) (Calls {} (SizeOk md)) :=
  (LRU.spec cs md).toEvictPredicts (LRU.strong cs md) (QInv.init cs md adm) LRU.toEvict
    (fun hi hne _ => LRU.toEvict_spec hi hne)

example : LRU_cached LRU_demo ≠ [] ∧ LRU.toEvict LRU_demo = some 1 := by decide

/-- C11: LRU is the textbook LRU; `QState.order` lists the cached objects with their sizes from the head of the queue. -/
theorem C11_lru_LRU (cs md : Nat) (adm : Adm) :
    Follows LRU.algo (LRU.init cs md adm) (Calls {} (SizeOk md)) lru cs md ⟨[], adm⟩
      (fun s => ⟨QState.order s, s.base.adm⟩) :=
  Sim.follows (LRU.spec cs md) (LRU.sim cs md) (QInv.init cs md adm)

example : QState.order LRU_demo = [(8, 1), (6, 1), (5, 1), (1, 4)] := by decide

end Verif.Props
