import Verif.Proof.Random
import Verif.Props.Demo
/-!
# Properties of RandomLRU (libCacheSim/cache/eviction/RandomLRU.c)

The statements are those of `Verif/Spec/Cache.lean`; here they are instantiated for RandomLRU and proved.  They hold for
every cache size, every metadata size, every admission policy and every sequence of client calls, and every sequence of random choices.
-/

namespace Verif.Props
open Verif Verif.Spec
set_option linter.unusedVariables false
set_option maxRecDepth 20000

/-- what RandomLRU has cached -/
abbrev RandomLRU_cached (s : RandomLRU.State) : Contents := s.base.cached

/-- The state after the demo calls on a cache of 10 bytes. -/
def RandomLRU_demo : RandomLRU.State :=
  match RandomLRU.algo.run (RandomLRU.init 10 0 .none demoPicks) demo with
  | .ok p => p.2
  | .error _ => RandomLRU.init 10 0 .none demoPicks

/-- The demo calls are permitted, run, and hit/miss as listed; the state they lead to is `RandomLRU_demo`. -/
theorem RandomLRU_demo_reached : Reaches RandomLRU.algo (RandomLRU.init 10 0 .none demoPicks) demo
    [false, false, true, false, false, true, true, false, false, false, false, true, false, false, true, true, true] RandomLRU_demo ∧
    RandomLRU_cached RandomLRU_demo = [(8, 1), (5, 1), (3, 3), (1, 4)] := ⟨rfl, by decide⟩

theorem C01_capacity_RandomLRU (cs md : Nat) (adm : Adm) (picks : List Nat) :
    Capacity RandomLRU.algo (RandomLRU.init cs md adm picks) (Calls {} (SizeOk md)) cs :=
  (RandomLRU.strong cs md).capacity (Rand.inv_init cs md adm picks)

example : RandomLRU.algo.occ RandomLRU_demo > 0 := by decide

theorem C02_accounting_RandomLRU (cs md : Nat) (adm : Adm) (picks : List Nat) :
    Accounting RandomLRU.algo RandomLRU_cached (RandomLRU.init cs md adm picks) (Calls {} (SizeOk md)) md :=
  (RandomLRU.strong cs md).accounting (Rand.inv_init cs md adm picks)

example : RandomLRU.algo.nObj RandomLRU_demo > 1 := by decide

theorem C03_hitIffCached_RandomLRU (cs md : Nat) (adm : Adm) (picks : List Nat) :
    HitIffCached RandomLRU.algo RandomLRU_cached (RandomLRU.init cs md adm picks) (Calls {} (SizeOk md)) :=
  (RandomLRU.strong cs md).hitIffCached (Rand.inv_init cs md adm picks)

theorem C04_noPhantom_RandomLRU (cs md : Nat) (adm : Adm) (picks : List Nat) :
    NoPhantom RandomLRU.algo RandomLRU_cached (RandomLRU.init cs md adm picks) (Calls {} (SizeOk md)) :=
  (RandomLRU.strong cs md).noPhantom (Rand.inv_init cs md adm picks) rfl

theorem C04_addsOnlyRequested_RandomLRU (cs md : Nat) (adm : Adm) (picks : List Nat) :
    AddsOnlyRequested RandomLRU.algo RandomLRU_cached (RandomLRU.init cs md adm picks) (Calls {} (SizeOk md)) :=
  (RandomLRU.strong cs md).addsOnlyRequested (Rand.inv_init cs md adm picks)

theorem C05_admittedMissCached_RandomLRU (cs md : Nat) (adm : Adm) (picks : List Nat) :
    AdmittedMissCached RandomLRU.algo RandomLRU_cached (fun s r => admitsBase s.base r) (RandomLRU.init cs md adm picks)
      (Calls {} (SizeOk md)) :=
  (RandomLRU.strong cs md).admittedMissCached (Rand.inv_init cs md adm picks)

/-- an admitted miss that needs several evictions -/
example : (7 ∉ (RandomLRU_cached RandomLRU_demo).ids ∧ admitsBase RandomLRU_demo.base ⟨7, 9, -2⟩ = true) := by decide

theorem C06_evictOnDemand_RandomLRU (cs md : Nat) (adm : Adm) (picks : List Nat) :
    EvictOnDemand RandomLRU.algo RandomLRU_cached (RandomLRU.init cs md adm picks) (Calls {} (SizeOk md)) cs md :=
  (RandomLRU.strong cs md).evictOnDemand (Rand.inv_init cs md adm picks)

theorem C07_removeExact_RandomLRU (cs md : Nat) (adm : Adm) (picks : List Nat) :
    RemoveExact RandomLRU.algo RandomLRU_cached (RandomLRU.init cs md adm picks) (Calls {} (SizeOk md)) :=
  (RandomLRU.spec cs md).removeExact (RandomLRU.strong cs md) (Rand.inv_init cs md adm picks)

/-- `core` is the whole state but the request counter and the admission policy's state. -/
theorem C08_rejectQuiet_RandomLRU (cs md : Nat) (adm : Adm) (picks : List Nat) :
    RejectQuiet RandomLRU.algo RandomLRU_cached (fun s r => admitsBase s.base r) Rand.core (RandomLRU.init cs md adm picks)
      (Calls {} (SizeOk md)) :=
  (RandomLRU.strong cs md).rejectQuiet (Rand.inv_init cs md adm picks)

/-- a rejected request -/
example : (7 ∉ (RandomLRU_cached RandomLRU_demo).ids ∧ admitsBase RandomLRU_demo.base ⟨7, 11, -2⟩ = false) := by decide

theorem C09_safe_RandomLRU (cs md : Nat) (adm : Adm) (picks : List Nat) :
    Safe RandomLRU.algo (RandomLRU.init cs md adm picks) (Calls {} (SizeOk md)) :=
  (RandomLRU.strong cs md).safe (Rand.inv_init cs md adm picks)

theorem C09_evictsOne_RandomLRU (cs md : Nat) (adm : Adm) (picks : List Nat) :
    EvictsOne RandomLRU.algo RandomLRU_cached (RandomLRU.init cs md adm picks) (Calls {} (SizeOk md)) :=
  (RandomLRU.spec cs md).evictsOne (RandomLRU.strong cs md) (Rand.inv_init cs md adm picks) rfl

/-! ## C20: the oldest object of the sample goes -/

/-- C20.  `evict` draws 64 objects (64 positions, an object may be drawn repeatedly) and removes one of them: of the drawn ones, one whose latest
access is not later than that of any other.  Time is counted in `get`s. -/
theorem C20_evictsOldestSampled_RandomLRU (cs md : Nat) (adm : Adm) (picks : List Nat) (ops : List Op) (out : List Bool) (s : RandomLRU.State)
    (ho : ∀ op ∈ ops, Calls {} (SizeOk md) op) (h : Reaches RandomLRU.algo (RandomLRU.init cs md adm picks) ops out s) (hne : RandomLRU_cached s ≠ []) (r : Req) :
    ∃ v s' nv rv, RandomLRU.algo.evict s r = .ok s' ∧ (RandomLRU_cached s).Perm (v :: RandomLRU_cached s') ∧ v ∈ Rand.sampled (RandomLRU_cached s) s.picks 64 ∧
      (Rand.sampled (RandomLRU_cached s) s.picks 64).length = 64 ∧ latestAt (ops.zip out) v.1 = some (nv, rv) ∧
      ∀ x ∈ Rand.sampled (RandomLRU_cached s) s.picks 64, ∃ nx rx, latestAt (ops.zip out) x.1 = some (nx, rx) ∧ nv ≤ nx :=
  Rand.evictsOldest cs md Rand.evictsLRU adm picks ops out s ho h hne

/- object 1 is older than object 2; drawn once among the 64, object 1 goes -/
example : (RandomLRU.algo.run (RandomLRU.init 10 0 .none ([0, 0, 0, 1])) [.get ⟨1, 1, -2⟩, .get ⟨2, 1, -2⟩, .evict ⟨3, 1, -2⟩]).map (fun p => RandomLRU_cached p.2) = .ok [(2, 1)] := rfl

end Verif.Props
