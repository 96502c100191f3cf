import Verif.Proof.LRUProb
import Verif.Props.Demo
/-!
# Properties of LRU_Prob (libCacheSim/cache/eviction/LRUProb.c) and nop (libCacheSim/cache/eviction/nop.c)

The general theorems about LRU_Prob assume that `malloc` returned zeroed memory (`junk = false`), because `LRU_Prob_init` does not set the
two ends of its queue, and a threshold of at least 1, i.e. a probability of at most 1.
-/

namespace Verif.Props
open Verif Verif.Spec
set_option linter.unusedVariables false

/-- what LRU_Prob has cached -/
abbrev LRUProb_cached (s : LRUProb.State) : Contents := s.base.cached

def LRUProb_demo : LRUProb.State := after LRUProb.algo (LRUProb.init 10 0 .none false 2 demoPicks) demo

theorem LRUProb_demo_reached : Reaches LRUProb.algo (LRUProb.init 10 0 .none false 2 demoPicks) demo
      [false, false, true, false, false, true, false, false, true, true, false, false, false, false, true, true, true] LRUProb_demo ∧
    LRUProb_cached LRUProb_demo = [(8, 1), (6, 1), (5, 1), (1, 4)] :=
  ⟨reaches_after (by decide +kernel), by decide +kernel⟩

section
variable (cs md n : Nat) (hn : 0 < n) (adm : Adm) (picks : List Nat)
include hn

theorem C01_capacity_LRUProb_partial : Capacity LRUProb.algo (LRUProb.init cs md adm false n picks) (Calls {} (SizeOk md)) cs :=
  (LRUProb.strong cs md n hn).capacity (LRUProb.inv_init cs md n adm picks)

theorem C02_accounting_LRUProb_partial :
    Accounting LRUProb.algo LRUProb_cached (LRUProb.init cs md adm false n picks) (Calls {} (SizeOk md)) md :=
  (LRUProb.strong cs md n hn).accounting (LRUProb.inv_init cs md n adm picks)

theorem C03_hitIffCached_LRUProb_partial :
    HitIffCached LRUProb.algo LRUProb_cached (LRUProb.init cs md adm false n picks) (Calls {} (SizeOk md)) :=
  (LRUProb.strong cs md n hn).hitIffCached (LRUProb.inv_init cs md n adm picks)

theorem C04_noPhantom_LRUProb_partial :
    NoPhantom LRUProb.algo LRUProb_cached (LRUProb.init cs md adm false n picks) (Calls {} (SizeOk md)) :=
  (LRUProb.strong cs md n hn).noPhantom (LRUProb.inv_init cs md n adm picks) rfl

theorem C04_addsOnlyRequested_LRUProb_partial :
    AddsOnlyRequested LRUProb.algo LRUProb_cached (LRUProb.init cs md adm false n picks) (Calls {} (SizeOk md)) :=
  (LRUProb.strong cs md n hn).addsOnlyRequested (LRUProb.inv_init cs md n adm picks)

theorem C05_admittedMissCached_LRUProb_partial :
    AdmittedMissCached LRUProb.algo LRUProb_cached (fun s r => admitsBase s.base r) (LRUProb.init cs md adm false n picks) (Calls {} (SizeOk md)) :=
  (LRUProb.strong cs md n hn).admittedMissCached (LRUProb.inv_init cs md n adm picks)

theorem C06_evictOnDemand_LRUProb_partial :
    EvictOnDemand LRUProb.algo LRUProb_cached (LRUProb.init cs md adm false n picks) (Calls {} (SizeOk md)) cs md :=
  (LRUProb.strong cs md n hn).evictOnDemand (LRUProb.inv_init cs md n adm picks)

theorem C07_removeExact_LRUProb_partial :
    RemoveExact LRUProb.algo LRUProb_cached (LRUProb.init cs md adm false n picks) (Calls {} (SizeOk md)) :=
  (LRUProb.spec cs md n hn).removeExact (LRUProb.strong cs md n hn) (LRUProb.inv_init cs md n adm picks)

/-- `core` is the whole state but the request counter and the admission policy's state. -/
theorem C08_rejectQuiet_LRUProb_partial :
    RejectQuiet LRUProb.algo LRUProb_cached (fun s r => admitsBase s.base r) LRUProb.core (LRUProb.init cs md adm false n picks) (Calls {} (SizeOk md)) :=
  (LRUProb.strong cs md n hn).rejectQuiet (LRUProb.inv_init cs md n adm picks)

theorem C09_safe_LRUProb_partial : Safe LRUProb.algo (LRUProb.init cs md adm false n picks) (Calls {} (SizeOk md)) :=
  (LRUProb.strong cs md n hn).safe (LRUProb.inv_init cs md n adm picks)

theorem C09_evictsOne_LRUProb_partial :
    EvictsOne LRUProb.algo LRUProb_cached (LRUProb.init cs md adm false n picks) (Calls {} (SizeOk md)) :=
  (LRUProb.spec cs md n hn).evictsOne (LRUProb.strong cs md n hn) (LRUProb.inv_init cs md n adm picks) rfl

theorem C10_toEvictPredicts_LRUProb_partial :
    ToEvictPredicts LRUProb.algo LRUProb_cached LRUProb.toEvict (LRUProb.init cs md adm false n picks) (Calls {} (SizeOk md)) :=
  (LRUProb.spec cs md n hn).toEvictPredicts (LRUProb.strong cs md n hn) (LRUProb.inv_init cs md n adm picks) LRUProb.toEvict
    (fun hi hne _ => LRUProb.toEvict_spec hi hne)

/-- C55: LRU_Prob is LRU where a hit moves its object to the front if and only if its draw is divisible by `n`. -/
theorem C55_lruProb_LRUProb_partial :
    Follows LRUProb.algo (LRUProb.init cs md adm false n picks) (Calls {} (SizeOk md)) (lruProb n) cs md ⟨([], picks), adm⟩
      (fun s => ⟨LRUProb.view s, s.base.adm⟩) :=
  Sim.follows (LRUProb.spec cs md n hn) (LRUProb.sim cs md n hn) (LRUProb.inv_init cs md n adm picks)

end

example : LRUProb.view LRUProb_demo = ([(8, 1), (6, 1), (5, 1), (1, 4)], [0, 5, 2, 9, 1, 4]) ∧ LRUProb.toEvict LRUProb_demo = some 1 := by decide +kernel

example : 7 ∉ (LRUProb_cached LRUProb_demo).ids ∧ admitsBase LRUProb_demo.base ⟨7, 9, -2⟩ = true ∧ admitsBase LRUProb_demo.base ⟨7, 11, -2⟩ = false := by decide +kernel

/-- C55: with threshold 1 every hit moves its object to the front: the discipline is LRU. -/
theorem C55_always_is_lru (t : Contents × List Nat) (r : Req) :
    ((lruProb 1).onHit t r).1 = lru.onHit t.1 r ∧ ((lruProb 1).evict t).1 = lru.evict t.1 ∧ ((lruProb 1).insert t r).1 = lru.insert t.1 r ∧
    ∀ id, ((lruProb 1).remove t id).1 = lru.remove t.1 id := by
  refine ⟨?_, rfl, rfl, fun _ => rfl⟩
  simp [lruProb, lru, Nat.mod_one]

/-- C09: `LRU_Prob_init` does not set the two ends of its queue; on memory that is not zeroed the first cached object is undefined
behaviour. -/
theorem C09_safe_fails_LRUProb : (∀ op ∈ [Op.get ⟨1, 1, -2⟩], Calls {} (SizeOk 0) op) ∧
    faultOf LRUProb.algo (LRUProb.init 10 0 .none true 2 []) [.get ⟨1, 1, -2⟩] = some .uninit :=
  ⟨by simp [Calls, SizeOk, u32], by decide +kernel⟩

/-- C09: with a probability above 1 the threshold is 0, and the first hit divides by zero. -/
theorem C09_safe_fails_LRUProb_zero : (∀ op ∈ [Op.get ⟨1, 1, -2⟩, Op.get ⟨1, 1, -2⟩], Calls {} (SizeOk 0) op) ∧
    faultOf LRUProb.algo (LRUProb.init 10 0 .none false 0 []) [.get ⟨1, 1, -2⟩, .get ⟨1, 1, -2⟩] = some .divZero :=
  ⟨by simp [Calls, SizeOk, u32], by decide +kernel⟩

/-! ### nop -/

/-- what nop has cached -/
abbrev Nop_cached (s : Nop.State) : Contents := s.cached

/-- C55: nop caches nothing: no call sequence fails, nothing is ever cached, the counters stay 0, and every get, find and remove misses. -/
theorem C55_nop (cs : Nat) (adm : Adm) (ops : List Op) : ∃ out s, Reaches Nop.algo (Nop.init cs adm) ops out s ∧
    Nop_cached s = [] ∧ Nop.algo.occ s = 0 ∧ Nop.algo.nObj s = 0 ∧ ((∀ r, Op.insert r ∉ ops) → ∀ b ∈ out, b = false) := by
  obtain ⟨out, s, h1, h2, h3⟩ := Nop.run_spec ops (Nop.init cs adm) (Nop.inv_init cs adm)
  refine ⟨out, s, h1, ?_, h2.occ, h2.nObj, h3⟩
  show s.cached = []
  unfold Base.cached
  rw [h2.tbl]
  rfl

example : answers Nop.algo (Nop.init 10 .none) [.get ⟨1, 1, -2⟩, .get ⟨1, 1, -2⟩, .get ⟨2, 30, -2⟩, .remove 1] = some [false, false, false, false] := by
  decide +kernel

/-- C05: an admitted miss is not cached by nop. -/
theorem C05_admittedMissCached_fails_Nop : admitsBase (Nop.init 10 .none) ⟨1, 1, -2⟩ = true ∧
    ∃ s', Nop.algo.get (Nop.init 10 .none) ⟨1, 1, -2⟩ = .ok (false, s') ∧ Nop_cached s' = [] :=
  ⟨by decide +kernel, _, res_ok (Nop.init 10 .none) (by decide +kernel), by decide +kernel⟩

/-- C10: `to_evict` of nop fails an assertion. -/
theorem C10_toEvict_fails_Nop (s : Nop.State) : Nop.toEvict s = .error .assertFail := rfl

end Verif.Props
