import Verif.Proof.LFUDA
import Verif.Spec.History
import Verif.Props.Demo
/-!
# Properties of LFUDA (libCacheSim/cache/eviction/LFUDA.c)

LFUDA crashes on ordinary traces (`C09_safe_fails_LFUDA`), so the general theorems are about calls that return.
-/

namespace Verif.Props
open Verif Verif.Spec
set_option linter.unusedVariables false

/-- what LFUDA has cached -/
abbrev LFUDA_cached (s : LFUDA.State) : Contents := s.base.cached

def LFUDA_demo : LFUDA.State := after LFUDA.algo (LFUDA.init 10 0 .none) demo

theorem LFUDA_demo_reached : (∀ op ∈ demo, Calls {} (SizeOk 0) op) ∧
    Reaches LFUDA.algo (LFUDA.init 10 0 .none) demo
      [false, false, true, false, false, true, true, false, false, true, false, true, false, false, true, true, true] LFUDA_demo ∧
    LFUDA_cached LFUDA_demo = [(8, 1), (6, 1), (5, 1), (1, 4)] :=
  ⟨demo_calls 0 (by omega), reaches_after (by decide +kernel), by decide +kernel⟩

theorem C01_capacity_LFUDA_partial (cs md : Nat) (adm : Adm) :
    Capacity LFUDA.algo (LFUDA.init cs md adm) (Calls {} (SizeOk md)) cs :=
  (LFUDA.spec cs md).cond.capacity (LFUDA.inv_init cs md adm)

example : LFUDA.algo.occ LFUDA_demo > 0 := by decide +kernel

theorem C02_accounting_LFUDA_partial (cs md : Nat) (adm : Adm) :
    Accounting LFUDA.algo LFUDA_cached (LFUDA.init cs md adm) (Calls {} (SizeOk md)) md :=
  (LFUDA.spec cs md).cond.accounting (LFUDA.inv_init cs md adm)

example : LFUDA.algo.nObj LFUDA_demo > 1 := by decide +kernel

/-- Every call that returns answers rightly. -/
theorem C03_hitIffCached_LFUDA_partial (cs md : Nat) (adm : Adm) :
    HitIffCachedIf LFUDA.algo LFUDA_cached (LFUDA.init cs md adm) (Calls {} (SizeOk md)) :=
  (LFUDA.spec cs md).cond.hitIffCached (LFUDA.inv_init cs md adm)

theorem C04_noPhantom_LFUDA_partial (cs md : Nat) (adm : Adm) :
    NoPhantom LFUDA.algo LFUDA_cached (LFUDA.init cs md adm) (Calls {} (SizeOk md)) :=
  (LFUDA.spec cs md).cond.noPhantom (LFUDA.inv_init cs md adm) rfl

theorem C04_addsOnlyRequested_LFUDA_partial (cs md : Nat) (adm : Adm) :
    AddsOnlyRequested LFUDA.algo LFUDA_cached (LFUDA.init cs md adm) (Calls {} (SizeOk md)) :=
  (LFUDA.spec cs md).cond.addsOnlyRequested (LFUDA.inv_init cs md adm)

/-- A `get` that returns has cached the object. -/
theorem C05_admittedMissCached_LFUDA_partial (cs md : Nat) (adm : Adm) :
    AdmittedMissCachedIf LFUDA.algo LFUDA_cached (fun s r => admitsBase s.base r) (LFUDA.init cs md adm) (Calls {} (SizeOk md)) :=
  (LFUDA.strong cs md).admittedMissCached (LFUDA.inv_init cs md adm)

/-- an admitted miss that needs evictions -/
example : 7 ∉ (LFUDA_cached LFUDA_demo).ids ∧ (fun (s : LFUDA.State) r => admitsBase s.base r) LFUDA_demo ⟨7, 4, -2⟩ = true := by decide +kernel

theorem C06_evictOnDemand_LFUDA_partial (cs md : Nat) (adm : Adm) :
    EvictOnDemand LFUDA.algo LFUDA_cached (LFUDA.init cs md adm) (Calls {} (SizeOk md)) cs md :=
  (LFUDA.strong cs md).evictOnDemand (LFUDA.inv_init cs md adm)

/-- A `remove` that returns is exact. -/
theorem C07_removeExact_LFUDA_partial (cs md : Nat) (adm : Adm) :
    RemoveExactIf LFUDA.algo LFUDA_cached (LFUDA.init cs md adm) (Calls {} (SizeOk md)) :=
  (LFUDA.spec cs md).cond.removeExact (LFUDA.inv_init cs md adm)

/-- `core` is the whole state but the request counter and the admission policy's state. -/
theorem C08_rejectQuiet_LFUDA_partial (cs md : Nat) (adm : Adm) :
    RejectQuietIf LFUDA.algo LFUDA_cached (fun s r => admitsBase s.base r) LFUDA.core (LFUDA.init cs md adm) (Calls {} (SizeOk md)) :=
  (LFUDA.strong cs md).rejectQuiet (LFUDA.inv_init cs md adm)

/-- a rejected request -/
example : 7 ∉ (LFUDA_cached LFUDA_demo).ids ∧ (fun (s : LFUDA.State) r => admitsBase s.base r) LFUDA_demo ⟨7, 30, -2⟩ = false := by decide +kernel

/-- `get` requests for unit-size objects -/
def LFUDA_units (l : List Nat) : List Op := l.map (fun i => .get ⟨i, 1, -2⟩)

theorem LFUDA_units_calls (l : List Nat) : ∀ op ∈ LFUDA_units l, Calls {} (SizeOk 0) op := by
  intro op h
  obtain ⟨i, _, rfl⟩ := List.mem_map.1 h
  simp [Calls, SizeOk, u32]

/-- C09: five requests for different objects of size 1 crash a cache of size 2.  `LFUDA_insert` does not raise `max_freq`, so when the list of
`min_freq` is empty no other list is found. -/
theorem C09_safe_fails_LFUDA : ∃ ops : List Op, (∀ op ∈ ops, Calls {} (SizeOk 0) op) ∧ faultOf LFUDA.algo (LFUDA.init 2 0 .none) ops = some .nullDeref :=
  ⟨LFUDA_units [1, 2, 3, 4, 5], LFUDA_units_calls _, by decide +kernel⟩

/-- C43: hits before the first eviction do not count (`min_freq`, the amount a hit adds, is 0 until then): object 1 was hit three times,
object 2 never, and object 1 is evicted. -/
theorem C43_earlyHits_fails_LFUDA : ∃ ops : List Op, ∃ out s s', Reaches LFUDA.algo (LFUDA.init 2 0 .none) ops out s ∧
    LFUDA_cached s = [(2, 1), (1, 1)] ∧ hitsSince (ops.zip out) 1 = 3 ∧ hitsSince (ops.zip out) 2 = 0 ∧
    LFUDA.algo.get s ⟨3, 1, -2⟩ = .ok (false, s') ∧ LFUDA_cached s' = [(3, 1), (2, 1)] :=
  ⟨LFUDA_units [1, 1, 1, 1, 2], [false, true, true, true, false], _, _, reaches_after (by decide +kernel), by decide +kernel, by decide +kernel,
    by decide +kernel, res_ok (LFUDA.init 2 0 .none) (by decide +kernel), by decide +kernel⟩

/-- C43: a hit on the only object of the least list makes `min_freq` skip the object's new list, because `update_min_freq` runs before the
object is appended there.  Objects 2 and 3 entered before the first eviction; object 3 has more hits since and is evicted instead of object 2. -/
theorem C43_leastFrequent_fails_LFUDA : ∃ ops : List Op, ∃ out s s', Reaches LFUDA.algo (LFUDA.init 3 0 .none) ops out s ∧
    LFUDA_cached s = [(4, 1), (3, 1), (2, 1)] ∧ hitsSince (ops.zip out) 3 = 3 ∧ hitsSince (ops.zip out) 2 = 1 ∧
    LFUDA.algo.get s ⟨5, 1, -2⟩ = .ok (false, s') ∧ LFUDA_cached s' = [(5, 1), (4, 1), (2, 1)] :=
  ⟨LFUDA_units [1, 2, 3, 4, 3, 3, 3, 4, 4, 2], [false, false, false, false, true, true, true, true, true, true], _, _, reaches_after (by decide +kernel),
    by decide +kernel, by decide +kernel, by decide +kernel, res_ok (LFUDA.init 3 0 .none) (by decide +kernel), by decide +kernel⟩

end Verif.Props
