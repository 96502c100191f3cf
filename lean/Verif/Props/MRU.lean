import Verif.Proof.MRU
import Verif.Props.Demo
/-!
# Properties of MRU (libCacheSim/cache/eviction/MRU.c)

The statements are those of `Verif/Spec/Cache.lean`; here they are instantiated for MRU and proved.  They hold for
every cache size, every metadata size, every admission policy and every sequence of client calls in which any two requested
objects fit into the cache together and the client does not call `evict`.  Without that restriction they fail, because `MRU_evict`
dereferences NULL when exactly one object is cached: see the `_fails` theorems at the end.
-/

namespace Verif.Props
open Verif Verif.Spec
set_option linter.unusedVariables false

/-- what MRU has cached -/
abbrev MRU_cached (s : MRU.State) : Contents := s.base.cached

/-- The state after the demo calls on a cache of 10 bytes. -/
def MRU_demo : MRU.State :=
  match MRU.algo.run (MRU.init 10 0 .none) demoNE with
  | .ok p => p.2
  | .error _ => MRU.init 10 0 .none

/-- The demo calls are permitted, run, and hit/miss as listed; the state they lead to is `MRU_demo`. -/
theorem MRU_demo_reached : Reaches MRU.algo (MRU.init 10 0 .none) demoNE
    [false, false, true, false, false, false, true, false, true, true, false, true, false, false, true, true] MRU_demo ∧
    MRU_cached MRU_demo = [(8, 1), (6, 1), (5, 1), (2, 3), (1, 4)] := ⟨rfl, by decide⟩

theorem C01_capacity_MRU_partial (cs md : Nat) (adm : Adm) :
    Capacity MRU.algo (MRU.init cs md adm) (Calls { ev := false } (AnyTwoFit cs md)) cs :=
  (MRU.strong cs md).capacity (MRU.inv_init cs md adm)

example : MRU.algo.occ MRU_demo > 0 := by decide

theorem C02_accounting_MRU_partial (cs md : Nat) (adm : Adm) :
    Accounting MRU.algo MRU_cached (MRU.init cs md adm) (Calls { ev := false } (AnyTwoFit cs md)) md :=
  (MRU.strong cs md).accounting (MRU.inv_init cs md adm)

example : MRU.algo.nObj MRU_demo > 1 := by decide

theorem C03_hitIffCached_MRU_partial (cs md : Nat) (adm : Adm) :
    HitIffCached MRU.algo MRU_cached (MRU.init cs md adm) (Calls { ev := false } (AnyTwoFit cs md)) :=
  (MRU.strong cs md).hitIffCached (MRU.inv_init cs md adm)

theorem C04_noPhantom_MRU_partial (cs md : Nat) (adm : Adm) :
    NoPhantom MRU.algo MRU_cached (MRU.init cs md adm) (Calls { ev := false } (AnyTwoFit cs md)) :=
  (MRU.strong cs md).noPhantom (MRU.inv_init cs md adm) rfl

theorem C04_addsOnlyRequested_MRU_partial (cs md : Nat) (adm : Adm) :
    AddsOnlyRequested MRU.algo MRU_cached (MRU.init cs md adm) (Calls { ev := false } (AnyTwoFit cs md)) :=
  (MRU.strong cs md).addsOnlyRequested (MRU.inv_init cs md adm)

theorem C05_admittedMissCached_MRU_partial (cs md : Nat) (adm : Adm) :
    AdmittedMissCached MRU.algo MRU_cached (fun s r => admitsBase s.base r) (MRU.init cs md adm)
      (Calls { ev := false } (AnyTwoFit cs md)) :=
  (MRU.strong cs md).admittedMissCached (MRU.inv_init cs md adm)

/-- an admitted miss that needs several evictions -/
example : (7 ∉ (MRU_cached MRU_demo).ids ∧ admitsBase MRU_demo.base ⟨7, 5, -2⟩ = true) := by decide

theorem C06_evictOnDemand_MRU_partial (cs md : Nat) (adm : Adm) :
    EvictOnDemand MRU.algo MRU_cached (MRU.init cs md adm) (Calls { ev := false } (AnyTwoFit cs md)) cs md :=
  (MRU.strong cs md).evictOnDemand (MRU.inv_init cs md adm)

theorem C07_removeExact_MRU_partial (cs md : Nat) (adm : Adm) :
    RemoveExact MRU.algo MRU_cached (MRU.init cs md adm) (Calls { ev := false } (AnyTwoFit cs md)) :=
  (MRU.spec cs md).removeExact (MRU.strong cs md) (MRU.inv_init cs md adm)

/-- `core` is the whole state but the request counter and the admission policy's state. -/
theorem C08_rejectQuiet_MRU_partial (cs md : Nat) (adm : Adm) :
    RejectQuiet MRU.algo MRU_cached (fun s r => admitsBase s.base r) QState.core (MRU.init cs md adm)
      (Calls { ev := false } (AnyTwoFit cs md)) :=
  (MRU.strong cs md).rejectQuiet (MRU.inv_init cs md adm)

/-- a rejected request -/
example : (7 ∉ (MRU_cached MRU_demo).ids ∧ admitsBase MRU_demo.base ⟨7, 11, -2⟩ = false) := by decide

theorem C09_safe_MRU_partial (cs md : Nat) (adm : Adm) :
    Safe MRU.algo (MRU.init cs md adm) (Calls { ev := false } (AnyTwoFit cs md)) :=
  (MRU.strong cs md).safe (MRU.inv_init cs md adm)

/-- C17: MRU is the textbook MRU as long as it does not crash. -/
theorem C17_mru_MRU_partial (cs md : Nat) (adm : Adm) :
    Follows MRU.algo (MRU.init cs md adm) (Calls { ev := false } (AnyTwoFit cs md)) mru cs md ⟨[], adm⟩
      (fun s => ⟨QState.order s, s.base.adm⟩) :=
  Sim.follows (MRU.spec cs md) (MRU.sim cs md) (MRU.inv_init cs md adm)

example : QState.order MRU_demo = [(8, 1), (6, 1), (5, 1), (1, 4), (2, 3)] := by decide

/-- C10 for MRU: whenever at least two objects are cached. -/
theorem C10_toEvictPredicts_MRU_partial (cs md : Nat) (adm : Adm) (ops : List Op) (out : List Bool) (s : MRU.State)
    (ho : ∀ op ∈ ops, Calls { ev := false } (AnyTwoFit cs md) op)
    (h : Reaches MRU.algo (MRU.init cs md adm) ops out s) (h2 : 2 ≤ (MRU_cached s).length) :
    ∃ id n s', MRU.toEvict s = some id ∧ MRU.evict s = .ok s' ∧ (MRU_cached s).Perm ((id, n) :: MRU_cached s') :=
  MRU.toEvict_spec ((MRU.strong cs md).reach (MRU.inv_init cs md adm) ho h).q (by simpa [MRU_cached, Base.cached] using h2)

/-- The full C09 fails for MRU: two one-byte objects requested from a one-byte cache crash it, with no call but get. -/
theorem C09_fails_MRU :
    MRU.algo.run (MRU.init 1 0 .none) [.get ⟨1, 1, -2⟩, .get ⟨2, 1, -2⟩] = .error .nullDeref ∧
    ¬ Safe MRU.algo (MRU.init 1 0 .none) (Calls { rem := false, ev := false, ins := false } (SizeOk 0)) := by
  refine ⟨rfl, fun h => ?_⟩
  obtain ⟨out, s, hr⟩ := h [.get ⟨1, 1, -2⟩, .get ⟨2, 1, -2⟩] (by
    intro op hop
    simp only [List.mem_cons, List.not_mem_nil, or_false] at hop
    rcases hop with rfl | rfl <;> simp [Calls, SizeOk, u32])
  have : MRU.algo.run (MRU.init 1 0 .none) [.get ⟨1, 1, -2⟩, .get ⟨2, 1, -2⟩] = .error .nullDeref := rfl
  rw [Reaches, this] at hr
  cases hr

/-- The full C09 fails for MRU in caches of any size: evicting the only cached object crashes. -/
theorem C09_evict_fails_MRU (cs : Nat) (hcs : 0 < cs) :
    MRU.algo.run (MRU.init cs 0 .none) [.get ⟨1, 1, -2⟩, .evict ⟨1, 1, -2⟩] = .error .nullDeref := by
  have h1 : ¬ cs < 1 := by omega
  have h2 : ¬ ((cs : Int) < 1) := by omega
  simp [Algo.run, Algo.step, Algo.get, MRU.algo, MRU.init, MRU.find, QState.init, QState.bump, Base.init, Base.bump,
    Base.findBase, Base.lookup, QState.canInsert, Base.canInsertDefault, Adm.admit, h1, h2, Algo.evictLoop, Algo.mustEvict,
    QState.insert, qPrepend, Base.insertBase, MRU.evict]

end Verif.Props
