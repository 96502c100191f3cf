import Verif.Proof.Random
import Verif.Props.Demo
/-!
# Properties of RandomTwo (libCacheSim/cache/eviction/RandomTwo.c)

The statements are those of `Verif/Spec/Cache.lean`; here they are instantiated for RandomTwo and proved.  They hold for
every cache size, every metadata size, every admission policy and every sequence of client calls, and every sequence of random choices.
-/

namespace Verif.Props
open Verif Verif.Spec
set_option linter.unusedVariables false

/-- what RandomTwo has cached -/
abbrev RandomTwo_cached (s : RandomTwo.State) : Contents := s.base.cached

/-- The state after the demo calls on a cache of 10 bytes. -/
def RandomTwo_demo : RandomTwo.State :=
  match RandomTwo.algo.run (RandomTwo.init 10 0 .none demoPicks) demo with
  | .ok p => p.2
  | .error _ => RandomTwo.init 10 0 .none demoPicks

/-- The demo calls are permitted, run, and hit/miss as listed; the state they lead to is `RandomTwo_demo`. -/
theorem RandomTwo_demo_reached : Reaches RandomTwo.algo (RandomTwo.init 10 0 .none demoPicks) demo
    [false, false, true, false, false, true, true, false, false, false, false, true, false, false, true, true, true] RandomTwo_demo ∧
    RandomTwo_cached RandomTwo_demo = [(8, 1), (6, 1), (2, 3), (3, 3)] := ⟨rfl, by decide⟩

theorem C01_capacity_RandomTwo (cs md : Nat) (adm : Adm) (picks : List Nat) :
    Capacity RandomTwo.algo (RandomTwo.init cs md adm picks) (Calls {} (SizeOk md)) cs :=
  (RandomTwo.strong cs md).capacity (Rand.inv_init cs md adm picks)

example : RandomTwo.algo.occ RandomTwo_demo > 0 := by decide

theorem C02_accounting_RandomTwo (cs md : Nat) (adm : Adm) (picks : List Nat) :
    Accounting RandomTwo.algo RandomTwo_cached (RandomTwo.init cs md adm picks) (Calls {} (SizeOk md)) md :=
  (RandomTwo.strong cs md).accounting (Rand.inv_init cs md adm picks)

example : RandomTwo.algo.nObj RandomTwo_demo > 1 := by decide

theorem C03_hitIffCached_RandomTwo (cs md : Nat) (adm : Adm) (picks : List Nat) :
    HitIffCached RandomTwo.algo RandomTwo_cached (RandomTwo.init cs md adm picks) (Calls {} (SizeOk md)) :=
  (RandomTwo.strong cs md).hitIffCached (Rand.inv_init cs md adm picks)

theorem C04_noPhantom_RandomTwo (cs md : Nat) (adm : Adm) (picks : List Nat) :
    NoPhantom RandomTwo.algo RandomTwo_cached (RandomTwo.init cs md adm picks) (Calls {} (SizeOk md)) :=
  (RandomTwo.strong cs md).noPhantom (Rand.inv_init cs md adm picks) rfl

theorem C04_addsOnlyRequested_RandomTwo (cs md : Nat) (adm : Adm) (picks : List Nat) :
    AddsOnlyRequested RandomTwo.algo RandomTwo_cached (RandomTwo.init cs md adm picks) (Calls {} (SizeOk md)) :=
  (RandomTwo.strong cs md).addsOnlyRequested (Rand.inv_init cs md adm picks)

theorem C05_admittedMissCached_RandomTwo (cs md : Nat) (adm : Adm) (picks : List Nat) :
    AdmittedMissCached RandomTwo.algo RandomTwo_cached (fun s r => admitsBase s.base r) (RandomTwo.init cs md adm picks)
      (Calls {} (SizeOk md)) :=
  (RandomTwo.strong cs md).admittedMissCached (Rand.inv_init cs md adm picks)

/-- an admitted miss that needs several evictions -/
example : (7 ∉ (RandomTwo_cached RandomTwo_demo).ids ∧ admitsBase RandomTwo_demo.base ⟨7, 9, -2⟩ = true) := by decide

theorem C06_evictOnDemand_RandomTwo (cs md : Nat) (adm : Adm) (picks : List Nat) :
    EvictOnDemand RandomTwo.algo RandomTwo_cached (RandomTwo.init cs md adm picks) (Calls {} (SizeOk md)) cs md :=
  (RandomTwo.strong cs md).evictOnDemand (Rand.inv_init cs md adm picks)

theorem C07_removeExact_RandomTwo (cs md : Nat) (adm : Adm) (picks : List Nat) :
    RemoveExact RandomTwo.algo RandomTwo_cached (RandomTwo.init cs md adm picks) (Calls {} (SizeOk md)) :=
  (RandomTwo.spec cs md).removeExact (RandomTwo.strong cs md) (Rand.inv_init cs md adm picks)

/-- `core` is the whole state but the request counter and the admission policy's state. -/
theorem C08_rejectQuiet_RandomTwo (cs md : Nat) (adm : Adm) (picks : List Nat) :
    RejectQuiet RandomTwo.algo RandomTwo_cached (fun s r => admitsBase s.base r) Rand.core (RandomTwo.init cs md adm picks)
      (Calls {} (SizeOk md)) :=
  (RandomTwo.strong cs md).rejectQuiet (Rand.inv_init cs md adm picks)

/-- a rejected request -/
example : (7 ∉ (RandomTwo_cached RandomTwo_demo).ids ∧ admitsBase RandomTwo_demo.base ⟨7, 11, -2⟩ = false) := by decide

theorem C09_safe_RandomTwo (cs md : Nat) (adm : Adm) (picks : List Nat) :
    Safe RandomTwo.algo (RandomTwo.init cs md adm picks) (Calls {} (SizeOk md)) :=
  (RandomTwo.strong cs md).safe (Rand.inv_init cs md adm picks)

theorem C09_evictsOne_RandomTwo (cs md : Nat) (adm : Adm) (picks : List Nat) :
    EvictsOne RandomTwo.algo RandomTwo_cached (RandomTwo.init cs md adm picks) (Calls {} (SizeOk md)) :=
  (RandomTwo.spec cs md).evictsOne (RandomTwo.strong cs md) (Rand.inv_init cs md adm picks) rfl

/-! ## C20: the oldest object of the sample goes -/

/-- C20.  `evict` draws 2 objects (2 positions, an object may be drawn repeatedly) and removes one of them: of the drawn ones, one whose latest
access is not later than that of any other.  Time is counted in `get`s. -/
theorem C20_evictsOldestSampled_RandomTwo (cs md : Nat) (adm : Adm) (picks : List Nat) (ops : List Op) (out : List Bool) (s : RandomTwo.State)
    (ho : ∀ op ∈ ops, Calls {} (SizeOk md) op) (h : Reaches RandomTwo.algo (RandomTwo.init cs md adm picks) ops out s) (hne : RandomTwo_cached s ≠ []) (r : Req) :
    ∃ v s' nv rv, RandomTwo.algo.evict s r = .ok s' ∧ (RandomTwo_cached s).Perm (v :: RandomTwo_cached s') ∧ v ∈ Rand.sampled (RandomTwo_cached s) s.picks 2 ∧
      (Rand.sampled (RandomTwo_cached s) s.picks 2).length = 2 ∧ latestAt (ops.zip out) v.1 = some (nv, rv) ∧
      ∀ x ∈ Rand.sampled (RandomTwo_cached s) s.picks 2, ∃ nx rx, latestAt (ops.zip out) x.1 = some (nx, rx) ∧ nv ≤ nx :=
  Rand.evictsOldest cs md Rand.evicts2 adm picks ops out s ho h hne

/-! ## C10 fails -/

/-- C10 fails.  `to_evict` draws two objects, `evict` draws two others. -/
theorem C10_toEvict_fails_RandomTwo : ∃ s o s1 s2, RandomTwo.algo.run (RandomTwo.init 10 0 .none [0, 0, 1, 1]) [.get ⟨1, 1, -2⟩, .get ⟨2, 1, -2⟩] =
      .ok ([false, false], s) ∧ Rand.choose2 s = .ok (o, s1) ∧ o.id = 2 ∧ RandomTwo.algo.evict s1 ⟨3, 1, -2⟩ = .ok s2 ∧ RandomTwo_cached s2 = [(2, 1)] := by
  refine ⟨_, _, _, _, rfl, rfl, rfl, rfl, ?_⟩
  decide

/- object 1 is older than object 2; drawn both, in either order, object 1 goes -/
example : (RandomTwo.algo.run (RandomTwo.init 10 0 .none [0, 1]) [.get ⟨1, 1, -2⟩, .get ⟨2, 1, -2⟩, .evict ⟨3, 1, -2⟩]).map (fun p => RandomTwo_cached p.2) = .ok [(2, 1)] ∧
    (RandomTwo.algo.run (RandomTwo.init 10 0 .none [1, 0]) [.get ⟨1, 1, -2⟩, .get ⟨2, 1, -2⟩, .evict ⟨3, 1, -2⟩]).map (fun p => RandomTwo_cached p.2) = .ok [(2, 1)] := ⟨rfl, rfl⟩

end Verif.Props
