import Verif.Proof.BeladyQueue
import Verif.Props.Demo
/-!
# Properties of FIFO_Belady and LRU_Belady (libCacheSim/cache/eviction/belady/)

Both caches keep on their queue whatever is requested again soon.  They are `BeladyQueue.algo T false` and `BeladyQueue.algo T true`, where
`T` is the threshold computed in floating point; the theorems hold for every `T`.  Calls need not return, so the general theorems are about
calls that do; when they do not is the subject of C54.
-/

namespace Verif.Props
open Verif Verif.Spec
set_option linter.unusedVariables false

/-- what the cache has cached -/
abbrev BeladyQueue_cached (s : BeladyQueue.State) : Contents := s.base.cached

def FIFO_Belady_demo : BeladyQueue.State := after (BeladyQueue.algo .exact false) (BeladyQueue.init 10 0 .none) demoNext
def LRU_Belady_demo : BeladyQueue.State := after (BeladyQueue.algo .exact true) (BeladyQueue.init 10 0 .none) demoNext

theorem FIFO_Belady_demo_reached : Reaches (BeladyQueue.algo .exact false) (BeladyQueue.init 10 0 .none) demoNext
      [false, false, true, false, false, false, true, false, true, true, false, true, false, false, true, true, true] FIFO_Belady_demo ∧
    BeladyQueue_cached FIFO_Belady_demo = [(8, 1), (6, 1), (5, 1), (2, 3), (1, 4)] :=
  ⟨reaches_after (by decide +kernel), by decide +kernel⟩

theorem LRU_Belady_demo_reached : Reaches (BeladyQueue.algo .exact true) (BeladyQueue.init 10 0 .none) demoNext
      [false, false, true, false, false, false, true, false, true, true, false, true, false, false, true, true, true] LRU_Belady_demo ∧
    BeladyQueue_cached LRU_Belady_demo = [(8, 1), (6, 1), (5, 1), (1, 4)] :=
  ⟨reaches_after (by decide +kernel), by decide +kernel⟩

section
variable (T : BeladyQueue.Thresh) (promote : Bool) (cs md : Nat) (adm : Adm)

theorem C01_capacity_FIFO_LRU_Belady_partial :
    Capacity (BeladyQueue.algo T promote) (BeladyQueue.init cs md adm) (Calls {} (SizeOk md)) cs :=
  (BeladyQueue.strong T promote cs md).capacity (BeladyQueue.inv_init cs md adm)

theorem C02_accounting_FIFO_LRU_Belady_partial :
    Accounting (BeladyQueue.algo T promote) BeladyQueue_cached (BeladyQueue.init cs md adm) (Calls {} (SizeOk md)) md :=
  (BeladyQueue.strong T promote cs md).accounting (BeladyQueue.inv_init cs md adm)

/-- Every call that returns answers rightly. -/
theorem C03_hitIffCached_FIFO_LRU_Belady_partial :
    HitIffCachedIf (BeladyQueue.algo T promote) BeladyQueue_cached (BeladyQueue.init cs md adm) (Calls {} (SizeOk md)) :=
  (BeladyQueue.strong T promote cs md).hitIffCached (BeladyQueue.inv_init cs md adm)

theorem C04_noPhantom_FIFO_LRU_Belady_partial :
    NoPhantom (BeladyQueue.algo T promote) BeladyQueue_cached (BeladyQueue.init cs md adm) (Calls {} (SizeOk md)) :=
  (BeladyQueue.strong T promote cs md).noPhantom (BeladyQueue.inv_init cs md adm) rfl

theorem C04_addsOnlyRequested_FIFO_LRU_Belady_partial :
    AddsOnlyRequested (BeladyQueue.algo T promote) BeladyQueue_cached (BeladyQueue.init cs md adm) (Calls {} (SizeOk md)) :=
  (BeladyQueue.strong T promote cs md).addsOnlyRequested (BeladyQueue.inv_init cs md adm)

/-- A `get` that returns has cached the object. -/
theorem C05_admittedMissCached_FIFO_LRU_Belady_partial :
    AdmittedMissCachedIf (BeladyQueue.algo T promote) BeladyQueue_cached (fun s r => admitsBase s.base r) (BeladyQueue.init cs md adm)
      (Calls {} (SizeOk md)) :=
  (BeladyQueue.strong T promote cs md).admittedMissCached (BeladyQueue.inv_init cs md adm)

theorem C06_evictOnDemand_FIFO_LRU_Belady_partial :
    EvictOnDemand (BeladyQueue.algo T promote) BeladyQueue_cached (BeladyQueue.init cs md adm) (Calls {} (SizeOk md)) cs md :=
  (BeladyQueue.strong T promote cs md).evictOnDemand (BeladyQueue.inv_init cs md adm)

theorem C07_removeExact_FIFO_LRU_Belady_partial :
    RemoveExactIf (BeladyQueue.algo T promote) BeladyQueue_cached (BeladyQueue.init cs md adm) (Calls {} (SizeOk md)) :=
  (BeladyQueue.strong T promote cs md).removeExact (BeladyQueue.inv_init cs md adm)

/-- `core` is what is cached, with all object fields, and its order; the miss counter does change. -/
theorem C08_rejectQuiet_FIFO_LRU_Belady_partial :
    RejectQuietIf (BeladyQueue.algo T promote) BeladyQueue_cached (fun s r => admitsBase s.base r) BeladyQueue.core
      (BeladyQueue.init cs md adm) (Calls {} (SizeOk md)) :=
  (BeladyQueue.strong T promote cs md).rejectQuiet (BeladyQueue.inv_init cs md adm)

/-- C54: FIFO_Belady (`promote = false`) and LRU_Belady (`promote = true`) are the reference queue; where the reference does not return,
the cache loops. -/
theorem C54_queue_FIFO_LRU_Belady :
    IsMachine (BeladyQueue.algo T promote) (BeladyQueue.init cs md adm) (Calls {} (SizeOk md)) (Dated.queue T promote cs md) ⟨[], 0, 0, adm⟩
      BeladyQueue.view .diverge :=
  (BeladyQueue.stepIs T promote cs md).isMachine ⟨BeladyQueue.inv_init cs md adm, rfl⟩ rfl

/-- C54: a request for an uncached object that can be admitted returns exactly if it fits beside the cached objects that are due. -/
theorem C54_returns_FIFO_LRU_Belady {ops : List Op} {out : List Bool} {s : BeladyQueue.State} (ho : ∀ op ∈ ops, Calls {} (SizeOk md) op)
    (hr : Reaches (BeladyQueue.algo T promote) (BeladyQueue.init cs md adm) ops out s) {r : Req} (hsz : SizeOk md r)
    (hn : r.id ∉ (BeladyQueue_cached s).ids) (ha : admitsBase s.base r = true) :
    (∃ b s', (BeladyQueue.algo T promote).get s r = .ok (b, s')) ↔
      bytes md (Dated.contents ((BeladyQueue.view s).objs.filter (Dated.isDue T cs (s.base.nReq + 1) s.nMiss))) + r.size + md ≤ cs := by
  obtain ⟨hi, hm⟩ := (BeladyQueue.stepIs T promote cs md).inv ⟨BeladyQueue.inv_init cs md adm, rfl⟩ ho hr
  have hl : s.base.lookup r.id = none := lookup_none_iff'.2 hn
  have hadm : ((BeladyQueue.view s).adm.admit r).1 = true ∧ r.size + md ≤ cs := by
    have e : admitsBase s.base r = ((s.base.adm.admit r).1 && decide (r.size + s.base.objMd ≤ s.base.cacheSize)) := rfl
    have h1 : s.base.objMd = md := (QInv.base hi).md
    have h2 : s.base.cacheSize = cs := (QInv.base hi).cs
    rw [e, h1, h2] at ha
    have ha' := ha
    simp only [Bool.and_eq_true, decide_eq_true_eq] at ha'
    exact ha'
  have hq : ∀ x, Dated.sweep (Dated.isDue T cs ((BeladyQueue.view s).reqs + 1) (BeladyQueue.view s).misses)
      (fun l => decide (bytes md (Dated.contents l) + r.size + md ≤ cs)) (BeladyQueue.view s).objs.length (BeladyQueue.view s).objs = x →
      (Dated.qget T promote cs md (BeladyQueue.view s) r = none ↔ x = none) := by
    intro x hx
    unfold Dated.qget
    rw [BeladyQueue.holds_eq hi, hl]
    simp only [Option.isSome_none, Bool.false_eq_true, if_false, if_pos hadm, hx]
    cases x <;> simp
  constructor
  · rintro ⟨b, s', hg⟩
    refine Classical.byContradiction fun hno => ?_
    have hf := Dated.sweep_forever _ _ _ _ (BeladyQueue.view s).objs.length (BeladyQueue.view s).objs hno
    rcases BeladyQueue.get_spec (T := T) (promote := promote) hi hm r hsz with ⟨_, h2⟩ | ⟨b', s1, h1, _, h3⟩
    · rw [h2] at hg; cases hg
    · rw [((hq none hf).2 rfl)] at h3; cases h3
  · intro hfit
    obtain ⟨l', hl'⟩ := Dated.sweep_enough _ md r.size cs (BeladyQueue.view s).objs [] (by simp) (by simpa using hfit)
    rw [List.append_nil] at hl'
    rcases BeladyQueue.get_spec (T := T) (promote := promote) hi hm r hsz with ⟨h1, _⟩ | ⟨b', s1, h1, _⟩
    · have := (hq _ hl').1 h1; cases this
    · exact ⟨b', s1, h1⟩

/-- C54: a call that the model reports as endless really is: however often `evict` is called, there is no room. -/
theorem C54_endless_FIFO_LRU_Belady {ops : List Op} {out : List Bool} {s : BeladyQueue.State} (ho : ∀ op ∈ ops, Calls {} (SizeOk md) op)
    (hr : Reaches (BeladyQueue.algo T promote) (BeladyQueue.init cs md adm) ops out s) {r : Req} (hfit : r.size + md ≤ cs)
    (h : ¬bytes md (Dated.contents ((BeladyQueue.view s).objs.filter (Dated.isDue T cs s.base.nReq s.nMiss))) + r.size + md ≤ cs) (n : Nat) :
    (BeladyQueue.algo T promote).evictLoop r n s = .error .diverge :=
  BeladyQueue.forever ((BeladyQueue.stepIs T promote cs md).inv ⟨BeladyQueue.inv_init cs md adm, rfl⟩ ho hr).1 r hfit h n

end

/-- a request that returns and one that does not, in the same state -/
example : 7 ∉ (BeladyQueue_cached FIFO_Belady_demo).ids ∧ admitsBase FIFO_Belady_demo.base ⟨7, 4, 50⟩ = true ∧
    admitsBase FIFO_Belady_demo.base ⟨7, 5, 50⟩ = true ∧
    bytes 0 (Dated.contents ((BeladyQueue.view FIFO_Belady_demo).objs.filter (Dated.isDue BeladyQueue.Thresh.exact 10 12 FIFO_Belady_demo.nMiss))) = 6 ∧
    FIFO_Belady_demo.base.nReq + 1 = 12 := by
  refine ⟨?_, ?_, ?_, ?_, ?_⟩ <;> decide +kernel

/-- the due object 1 has been passed over -/
example : (BeladyQueue.view FIFO_Belady_demo).objs = [⟨2, 3, 30⟩, ⟨5, 1, int64Max⟩, ⟨6, 1, 22⟩, ⟨1, 4, 20⟩, ⟨8, 1, 25⟩] := by decide +kernel

/-- C09: on traces without next request times both caches hang as soon as they have to evict, whatever the threshold (which is never
negative): two requests for objects of size 1, cache size 1. -/
theorem C09_safe_fails_FIFO_LRU_Belady (T : BeladyQueue.Thresh) (hT : ∀ a b c, 0 ≤ T a b c) (promote : Bool) :
    (∀ op ∈ [Op.get ⟨1, 1, -2⟩, Op.get ⟨2, 1, -2⟩], Calls {} (SizeOk 0) op) ∧
    (BeladyQueue.algo T promote).run (BeladyQueue.init 1 0 .none) [.get ⟨1, 1, -2⟩, .get ⟨2, 1, -2⟩] = .error .diverge := by
  have ho : ∀ op ∈ [Op.get ⟨1, 1, -2⟩, Op.get ⟨2, 1, -2⟩], Calls {} (SizeOk 0) op := by simp [Calls, SizeOk, u32]
  refine ⟨ho, ?_⟩
  have hd : Dated.isDue T 1 2 1 ⟨1, 1, -2⟩ = true := by
    have := hT 1 2 1
    simp only [Dated.isDue, decide_eq_true_eq]
    omega
  have hno : (Dated.queue T promote 1 0).run ⟨[], 0, 0, .none⟩ [.get ⟨1, 1, -2⟩, .get ⟨2, 1, -2⟩] = none := by
    simp [Machine.run, Dated.queue, Dated.qget, Dated.holds, Adm.admit, Dated.sweep, bytes, Dated.contents, Dated.Entry.ofReq, u32, Dated.pass, hd]
  rcases C54_queue_FIFO_LRU_Belady T promote 1 0 .none [.get ⟨1, 1, -2⟩, .get ⟨2, 1, -2⟩] ho with ⟨_, h⟩ | ⟨out, s, _, h⟩
  · exact h
  · rw [hno] at h; cases h

/-- C09: an explicit `evict` on a non-empty cache need not evict anything. -/
theorem C09_evictsOne_fails_FIFO_LRU_Belady : ∃ out s, ∃ s' : BeladyQueue.State,
    Reaches (BeladyQueue.algo .exact false) (BeladyQueue.init 10 0 .none) [.get ⟨1, 1, 3⟩] out s ∧
    (BeladyQueue.algo .exact false).step s (.evict ⟨0, 0, -2⟩) = .ok (true, s') ∧ BeladyQueue_cached s = [(1, 1)] ∧ BeladyQueue_cached s' = [(1, 1)] :=
  ⟨[false], _, _, reaches_after (by decide +kernel), res_ok (BeladyQueue.init 10 0 .none) (by decide +kernel), by decide +kernel, by decide +kernel⟩

end Verif.Props
