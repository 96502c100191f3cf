import Verif.Proof.LFU
import Verif.Props.Demo
/-!
# Properties of LFU (libCacheSim/cache/eviction/LFU.c)

The statements are those of `Verif/Spec/Cache.lean`; here they are instantiated for LFU and proved.  They hold for
every cache size, every metadata size, every admission policy and every sequence of client calls.
-/

namespace Verif.Props
open Verif Verif.Spec
set_option linter.unusedVariables false

/-- what LFU has cached -/
abbrev LFU_cached (s : LFU.State) : Contents := s.base.cached

/-- The state after the demo calls on a cache of 10 bytes. -/
def LFU_demo : LFU.State :=
  match LFU.algo.run (LFU.init 10 0 .none) demo with
  | .ok p => p.2
  | .error _ => LFU.init 10 0 .none

/-- The demo calls are permitted, run, and hit/miss as listed; the state they lead to is `LFU_demo`. -/
theorem LFU_demo_reached : Reaches LFU.algo (LFU.init 10 0 .none) demo
    [false, false, true, false, false, true, true, false, false, true, false, true, false, false, true, true, true] LFU_demo ∧
    LFU_cached LFU_demo = [(8, 1), (6, 1), (5, 1), (1, 4)] := ⟨rfl, by decide⟩

theorem C01_capacity_LFU (cs md : Nat) (adm : Adm) :
    Capacity LFU.algo (LFU.init cs md adm) (Calls {} (SizeOk md)) cs :=
  (LFU.strong cs md).capacity (LFU.inv_init cs md adm)

example : LFU.algo.occ LFU_demo > 0 := by decide

theorem C02_accounting_LFU (cs md : Nat) (adm : Adm) :
    Accounting LFU.algo LFU_cached (LFU.init cs md adm) (Calls {} (SizeOk md)) md :=
  (LFU.strong cs md).accounting (LFU.inv_init cs md adm)

example : LFU.algo.nObj LFU_demo > 1 := by decide

theorem C03_hitIffCached_LFU (cs md : Nat) (adm : Adm) :
    HitIffCached LFU.algo LFU_cached (LFU.init cs md adm) (Calls {} (SizeOk md)) :=
  (LFU.strong cs md).hitIffCached (LFU.inv_init cs md adm)

theorem C04_noPhantom_LFU (cs md : Nat) (adm : Adm) :
    NoPhantom LFU.algo LFU_cached (LFU.init cs md adm) (Calls {} (SizeOk md)) :=
  (LFU.strong cs md).noPhantom (LFU.inv_init cs md adm) rfl

theorem C04_addsOnlyRequested_LFU (cs md : Nat) (adm : Adm) :
    AddsOnlyRequested LFU.algo LFU_cached (LFU.init cs md adm) (Calls {} (SizeOk md)) :=
  (LFU.strong cs md).addsOnlyRequested (LFU.inv_init cs md adm)

theorem C05_admittedMissCached_LFU (cs md : Nat) (adm : Adm) :
    AdmittedMissCached LFU.algo LFU_cached (fun s r => admitsBase s.base r) (LFU.init cs md adm)
      (Calls {} (SizeOk md)) :=
  (LFU.strong cs md).admittedMissCached (LFU.inv_init cs md adm)

/-- an admitted miss that needs several evictions -/
example : (7 ∉ (LFU_cached LFU_demo).ids ∧ admitsBase LFU_demo.base ⟨7, 9, -2⟩ = true) := by decide

theorem C06_evictOnDemand_LFU (cs md : Nat) (adm : Adm) :
    EvictOnDemand LFU.algo LFU_cached (LFU.init cs md adm) (Calls {} (SizeOk md)) cs md :=
  (LFU.strong cs md).evictOnDemand (LFU.inv_init cs md adm)

theorem C07_removeExact_LFU (cs md : Nat) (adm : Adm) :
    RemoveExact LFU.algo LFU_cached (LFU.init cs md adm) (Calls {} (SizeOk md)) :=
  (LFU.spec cs md).removeExact (LFU.strong cs md) (LFU.inv_init cs md adm)

/-- `core` is the whole state but the request counter and the admission policy's state. -/
theorem C08_rejectQuiet_LFU (cs md : Nat) (adm : Adm) :
    RejectQuiet LFU.algo LFU_cached (fun s r => admitsBase s.base r) LFU.core (LFU.init cs md adm)
      (Calls {} (SizeOk md)) :=
  (LFU.strong cs md).rejectQuiet (LFU.inv_init cs md adm)

/-- a rejected request -/
example : (7 ∉ (LFU_cached LFU_demo).ids ∧ admitsBase LFU_demo.base ⟨7, 11, -2⟩ = false) := by decide

theorem C09_safe_LFU (cs md : Nat) (adm : Adm) :
    Safe LFU.algo (LFU.init cs md adm) (Calls {} (SizeOk md)) :=
  (LFU.strong cs md).safe (LFU.inv_init cs md adm)

theorem C09_evictsOne_LFU (cs md : Nat) (adm : Adm) :
    EvictsOne LFU.algo LFU_cached (LFU.init cs md adm) (Calls {} (SizeOk md)) :=
  (LFU.spec cs md).evictsOne (LFU.strong cs md) (LFU.inv_init cs md adm) rfl

theorem C10_toEvictPredicts_LFU (cs md : Nat) (adm : Adm) :
    ToEvictPredicts LFU.algo LFU_cached LFU.toEvict (LFU.init cs md adm) (Calls {} (SizeOk md)) :=
  (LFU.spec cs md).toEvictPredicts (LFU.strong cs md) (LFU.inv_init cs md adm) LFU.toEvict
    (fun hi hne _ => LFU.toEvict_spec hi hne)

example : LFU_cached LFU_demo ≠ [] ∧ LFU.toEvict LFU_demo = some 5 := by decide

/-- C16: LFU is the textbook LFU; `LFU.view` lists the cached objects with their access counts, the next victim first. -/
theorem C16_lfu_LFU (cs md : Nat) (adm : Adm) :
    Follows LFU.algo (LFU.init cs md adm) (Calls {} (SizeOk md)) lfu cs md ⟨[], adm⟩
      (fun s => ⟨LFU.view s, s.base.adm⟩) :=
  Sim.follows (LFU.spec cs md) (LFU.sim cs md) (LFU.inv_init cs md adm)

example : LFU.view LFU_demo = [⟨5, 1, 1⟩, ⟨8, 1, 1⟩, ⟨6, 1, 2⟩, ⟨1, 4, 4⟩] := by decide

/-- C16: no cached object was accessed fewer times than the one LFU evicts, and those accessed equally often are behind it in
the list. -/
theorem C16_lfuEvictsLowest_LFU (cs md : Nat) (adm : Adm) (ops : List Op) (out : List Bool)
    (s : LFU.State) (ho : ∀ op ∈ ops, Calls {} (SizeOk md) op)
    (h : Reaches LFU.algo (LFU.init cs md adm) ops out s) (hne : LFU_cached s ≠ []) :
    ∃ s' x rest, LFU.evict s = .ok s' ∧ (LFU_cached s).Perm ((x.id, x.size) :: LFU_cached s') ∧
      LFU.view s = x :: rest ∧ ∀ y ∈ rest, x.cnt ≤ y.cnt := by
  have hi := (LFU.strong cs md).reach (LFU.inv_init cs md adm) ho h
  obtain ⟨s', o, h1, _, h3, h4, h5, h6, _⟩ := LFU.evict_spec hi
    (by intro e; simp [LFU_cached, Base.cached, e] at hne)
  obtain ⟨t, ht⟩ := LFU.view_head hi.toCInv h3 h5 h6
  refine ⟨s', cntItem o, t, h1, h4, ht, ?_⟩
  intro y hy
  have hy' : y ∈ LFU.view s := by rw [ht]; simp [hy]
  obtain ⟨o', ho', rfl⟩ := List.mem_map.1 (hi.toCInv.viewPerm.subset hy')
  exact h5 o' ho'

/-- C10: `LFU_to_evict` may write the field `min_freq` (`LFU.fixMin` is that write).  Nobody can tell: from the state it
leaves behind the cache goes on as the textbook LFU does from the state before the call. -/
theorem C10_toEvictUnnoticed_LFU (cs md : Nat) (adm : Adm) (ops : List Op) (out : List Bool)
    (s : LFU.State) (ho : ∀ op ∈ ops, Calls {} (SizeOk md) op)
    (h : Reaches LFU.algo (LFU.init cs md adm) ops out s) :
    Follows LFU.algo (LFU.fixMin s) (Calls {} (SizeOk md)) lfu cs md ⟨LFU.view s, s.base.adm⟩
      (fun s => ⟨LFU.view s, s.base.adm⟩) := by
  have hi := (LFU.strong cs md).reach (LFU.inv_init cs md adm) ho h
  obtain ⟨h1, h2⟩ := LFU.fixMin_keeps hi
  have h3 : (LFU.fixMin s).base = s.base := by
    unfold LFU.fixMin LFU.updateMin
    split
    · split <;> rfl
    · rfl
  have := Sim.follows (LFU.spec cs md) (LFU.sim cs md) h1
  simp only [tview, h2, h3] at this
  exact this

/-- a state in which the write happens -/
example : ∃ s, LFU.algo.run (LFU.init 10 0 .none) [.get ⟨1, 3, -2⟩, .get ⟨1, 3, -2⟩, .get ⟨2, 4, -2⟩, .evict ⟨0, 0, -2⟩] = .ok ([false, true, false, true], s) ∧
    s.minFreq = 0 ∧ (LFU.fixMin s).minFreq = 2 := ⟨_, rfl, by decide⟩

end Verif.Props
