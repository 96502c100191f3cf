import Verif.Proof.Clock
import Verif.Props.Demo
/-!
# Properties of Clock (libCacheSim/cache/eviction/Clock.c)

The statements are those of `Verif/Spec/Cache.lean`; here they are instantiated for Clock and proved.  They hold for
every cache size, every metadata size, every admission policy and every sequence of client calls.
-/

namespace Verif.Props
open Verif Verif.Spec
set_option linter.unusedVariables false

/-- what Clock has cached -/
abbrev Clock_cached (s : Clock.State) : Contents := s.base.cached

/-- The state after the demo calls on a cache of 10 bytes. -/
def Clock_demo : Clock.State :=
  match Clock.algo.run (Clock.init 10 0 3 .none) demo with
  | .ok p => p.2
  | .error _ => Clock.init 10 0 3 .none

/-- The demo calls are permitted, run, and hit/miss as listed; the state they lead to is `Clock_demo`. -/
theorem Clock_demo_reached : Reaches Clock.algo (Clock.init 10 0 3 .none) demo
    [false, false, true, false, false, true, true, false, false, true, false, true, false, false, true, true, true] Clock_demo ∧
    Clock_cached Clock_demo = [(8, 1), (6, 1), (5, 1), (1, 4)] := ⟨rfl, by decide⟩

theorem C01_capacity_Clock (cs md maxFreq : Nat) (adm : Adm) :
    Capacity Clock.algo (Clock.init cs md maxFreq adm) (Calls {} (SizeOk md)) cs :=
  (Clock.strong cs md maxFreq).capacity (Clock.inv_init cs md maxFreq adm)

example : Clock.algo.occ Clock_demo > 0 := by decide

theorem C02_accounting_Clock (cs md maxFreq : Nat) (adm : Adm) :
    Accounting Clock.algo Clock_cached (Clock.init cs md maxFreq adm) (Calls {} (SizeOk md)) md :=
  (Clock.strong cs md maxFreq).accounting (Clock.inv_init cs md maxFreq adm)

example : Clock.algo.nObj Clock_demo > 1 := by decide

theorem C03_hitIffCached_Clock (cs md maxFreq : Nat) (adm : Adm) :
    HitIffCached Clock.algo Clock_cached (Clock.init cs md maxFreq adm) (Calls {} (SizeOk md)) :=
  (Clock.strong cs md maxFreq).hitIffCached (Clock.inv_init cs md maxFreq adm)

theorem C04_noPhantom_Clock (cs md maxFreq : Nat) (adm : Adm) :
    NoPhantom Clock.algo Clock_cached (Clock.init cs md maxFreq adm) (Calls {} (SizeOk md)) :=
  (Clock.strong cs md maxFreq).noPhantom (Clock.inv_init cs md maxFreq adm) rfl

theorem C04_addsOnlyRequested_Clock (cs md maxFreq : Nat) (adm : Adm) :
    AddsOnlyRequested Clock.algo Clock_cached (Clock.init cs md maxFreq adm) (Calls {} (SizeOk md)) :=
  (Clock.strong cs md maxFreq).addsOnlyRequested (Clock.inv_init cs md maxFreq adm)

theorem C05_admittedMissCached_Clock (cs md maxFreq : Nat) (adm : Adm) :
    AdmittedMissCached Clock.algo Clock_cached (fun s r => admitsBase s.base r) (Clock.init cs md maxFreq adm)
      (Calls {} (SizeOk md)) :=
  (Clock.strong cs md maxFreq).admittedMissCached (Clock.inv_init cs md maxFreq adm)

/-- an admitted miss that needs several evictions -/
example : (7 ∉ (Clock_cached Clock_demo).ids ∧ admitsBase Clock_demo.base ⟨7, 9, -2⟩ = true) := by decide

theorem C06_evictOnDemand_Clock (cs md maxFreq : Nat) (adm : Adm) :
    EvictOnDemand Clock.algo Clock_cached (Clock.init cs md maxFreq adm) (Calls {} (SizeOk md)) cs md :=
  (Clock.strong cs md maxFreq).evictOnDemand (Clock.inv_init cs md maxFreq adm)

theorem C07_removeExact_Clock (cs md maxFreq : Nat) (adm : Adm) :
    RemoveExact Clock.algo Clock_cached (Clock.init cs md maxFreq adm) (Calls {} (SizeOk md)) :=
  (Clock.spec cs md maxFreq).removeExact (Clock.strong cs md maxFreq) (Clock.inv_init cs md maxFreq adm)

/-- `core` is the whole state but the request counter and the admission policy's state. -/
theorem C08_rejectQuiet_Clock (cs md maxFreq : Nat) (adm : Adm) :
    RejectQuiet Clock.algo Clock_cached (fun s r => admitsBase s.base r) Clock.core (Clock.init cs md maxFreq adm)
      (Calls {} (SizeOk md)) :=
  (Clock.strong cs md maxFreq).rejectQuiet (Clock.inv_init cs md maxFreq adm)

/-- a rejected request -/
example : (7 ∉ (Clock_cached Clock_demo).ids ∧ admitsBase Clock_demo.base ⟨7, 11, -2⟩ = false) := by decide

theorem C09_safe_Clock (cs md maxFreq : Nat) (adm : Adm) :
    Safe Clock.algo (Clock.init cs md maxFreq adm) (Calls {} (SizeOk md)) :=
  (Clock.strong cs md maxFreq).safe (Clock.inv_init cs md maxFreq adm)

theorem C09_evictsOne_Clock (cs md maxFreq : Nat) (adm : Adm) :
    EvictsOne Clock.algo Clock_cached (Clock.init cs md maxFreq adm) (Calls {} (SizeOk md)) :=
  (Clock.spec cs md maxFreq).evictsOne (Clock.strong cs md maxFreq) (Clock.inv_init cs md maxFreq adm) rfl

theorem C10_toEvictPredicts_Clock (cs md maxFreq : Nat) (adm : Adm) :
    ToEvictPredicts Clock.algo Clock_cached Clock.toEvict (Clock.init cs md maxFreq adm) (Calls {} (SizeOk md)) :=
  (Clock.spec cs md maxFreq).toEvictPredicts (Clock.strong cs md maxFreq) (Clock.inv_init cs md maxFreq adm) Clock.toEvict
    (fun hi hne _ => Clock.toEvict_spec hi hne)

example : Clock_cached Clock_demo ≠ [] ∧ Clock.toEvict Clock_demo = some 5 := by decide

/-- C14: Clock is the textbook CLOCK with counters up to `maxFreq`; `Clock.view` lists the cached objects from the tail of the queue. -/
theorem C14_clock_Clock (cs md maxFreq : Nat) (adm : Adm) :
    Follows Clock.algo (Clock.init cs md maxFreq adm) (Calls {} (SizeOk md)) (clock maxFreq) cs md ⟨[], adm⟩
      (fun s => ⟨Clock.view s, s.base.adm⟩) :=
  Sim.follows (Clock.spec cs md maxFreq) (Clock.sim cs md maxFreq) (Clock.inv_init cs md maxFreq adm)

example : Clock.view Clock_demo = [⟨5, 1, 0⟩, ⟨6, 1, 1⟩, ⟨1, 4, 1⟩, ⟨8, 1, 0⟩] := by decide

/-- C14: the object Clock evicts is the oldest one among those with the lowest counter. -/
theorem C14_clockEvictsFirstLowest_Clock (cs md maxFreq : Nat) (adm : Adm) (ops : List Op) (out : List Bool)
    (s : Clock.State) (ho : ∀ op ∈ ops, Calls {} (SizeOk md) op)
    (h : Reaches Clock.algo (Clock.init cs md maxFreq adm) ops out s) (hne : Clock_cached s ≠ []) :
    ∃ s' v, Clock.evict s = .ok s' ∧ (Clock_cached s).Perm (v :: Clock_cached s') ∧
      IsFirstLowest (Clock.view s) v.1 := by
  obtain ⟨s', v, h1, _, h3, _, h5⟩ := Clock.evict_spec
    ((Clock.strong cs md maxFreq).reach (Clock.inv_init cs md maxFreq adm) ho h)
    (by intro e; simp [Clock_cached, Base.cached, e] at hne)
  exact ⟨s', v, h1, h3, h5.2⟩

end Verif.Props
