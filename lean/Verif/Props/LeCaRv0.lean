import Verif.Proof.LeCaRv0
import Verif.Props.LeCaR
/-!
# Properties of LeCaRv0 (libCacheSim/cache/eviction/LeCaRv0.c)

The statements are those of `Verif/Spec/Cache.lean` and `Verif/Spec/Experts.lean`.  They hold for every cache size, admission policy, way of adapting the weights, sequence of random
numbers and content of the unset time fields, and for every sequence of client calls in which no object that fits into the cache is larger than half of
it (`AnyTwoFit`).  A larger object crashes the cache when it is evicted (`C09_safe_fails_LeCaRv0`).
-/

namespace Verif.Props
open Verif Verif.Spec
set_option linter.unusedVariables false
set_option maxRecDepth 20000

abbrev LeCaRv0_A (R : LeCaR.Arith) : Algo (LeCaRv0.State R) := LeCaRv0.algo R

/-- what LeCaRv0 has cached -/
abbrev LeCaRv0_cached {R : LeCaR.Arith} (s : LeCaRv0.State R) : Contents := LeCaRv0.cached s

/-- the orders of the two experts, the histories with their times, the weight, the random numbers to come, the request count and the admission policy -/
abbrev LeCaRv0_view {R : LeCaR.Arith} (s : LeCaRv0.State R) : Experts.St R.W := LeCaRv0.view s

/-- how the weights of the model are used -/
abbrev LeCaRv0_weighing (R : LeCaR.Arith) : Experts.Weighing R.W := ⟨R.lruWins, R.updLru, R.updLfu⟩

abbrev LeCaRv0_new (R : LeCaR.Arith) (cs : Nat) (adm : Adm) (draws : List Nat) (vt0 : ObjId → Int) : LeCaRv0.State R := LeCaRv0.init cs adm draws vt0

/-- the textbook start: nothing cached, nothing remembered -/
def LeCaRv0_start (R : LeCaR.Arith) (adm : Adm) (draws : List Nat) (vt0 : ObjId → Int) : Experts.St R.W :=
  { recent := [], frequent := [], pastLru := [], pastLfu := [], timeLru := vt0, timeLfu := vt0, w := R.init, draws := draws, now := 0, adm := adm }

/-- a demo run: hits, evictions by both experts and by agreement, misses on remembered objects of both histories, removals, an explicit eviction and
insertion, a too large object -/
def LeCaRv0_ops : List Op := [.get ⟨1, 2, -2⟩, .get ⟨2, 2, -2⟩, .get ⟨1, 2, -2⟩, .get ⟨3, 2, -2⟩, .get ⟨4, 2, -2⟩, .find ⟨3, 2, -2⟩ false,
  .find ⟨1, 2, -2⟩ true, .get ⟨7, 30, -2⟩, .get ⟨2, 2, -2⟩, .get ⟨5, 3, -2⟩, .get ⟨3, 2, -2⟩, .remove 4, .remove 9, .get ⟨1, 2, -2⟩, .get ⟨6, 1, -2⟩,
  .evict ⟨0, 1, -2⟩, .insert ⟨8, 1, -2⟩, .get ⟨4, 2, -2⟩, .get ⟨9, 3, -2⟩, .get ⟨6, 1, -2⟩,
  .get ⟨10, 1, -2⟩, .get ⟨4, 2, -2⟩, .get ⟨11, 3, -2⟩, .get ⟨12, 1, -2⟩, .get ⟨10, 1, -2⟩, .remove 12]

def LeCaRv0_demo0 : LeCaRv0.State LeCaR_R := LeCaRv0_new LeCaR_R 7 .none [30, 60, 99, 10, 20, 70] (fun _ => 0)
def LeCaRv0_demo : LeCaRv0.State LeCaR_R := after (LeCaRv0_A LeCaR_R) LeCaRv0_demo0 LeCaRv0_ops

theorem LeCaRv0_demo_reached : Reaches (LeCaRv0_A LeCaR_R) LeCaRv0_demo0 LeCaRv0_ops
      [false, false, true, false, false, true, true, false, false, false, false, false, false, false, false, true, true, false, false, true, false, true, false, false, false, true] LeCaRv0_demo ∧
    (LeCaRv0_view LeCaRv0_demo).recent = [(10, 1), (4, 2), (6, 1)] ∧ (LeCaRv0_view LeCaRv0_demo).frequent = [⟨10, 1, 1⟩, ⟨6, 1, 2⟩, ⟨4, 2, 2⟩] ∧
    (LeCaRv0_view LeCaRv0_demo).pastLru = [] ∧ (LeCaRv0_view LeCaRv0_demo).pastLfu = [(11, 3)] ∧ (LeCaRv0_view LeCaRv0_demo).draws = [10, 20, 70] :=
  ⟨reaches_after (by decide +kernel), by decide +kernel, by decide +kernel, by decide +kernel, by decide +kernel, by decide +kernel⟩

theorem LeCaRv0_demo_calls : ∀ op ∈ LeCaRv0_ops, Calls {} (AnyTwoFit 7 0) op := by
  intro op hop
  simp only [LeCaRv0_ops, List.mem_cons, List.not_mem_nil, or_false] at hop
  rcases hop with rfl | rfl | rfl | rfl | rfl | rfl | rfl | rfl | rfl | rfl | rfl | rfl | rfl | rfl | rfl | rfl | rfl | rfl | rfl | rfl | rfl | rfl | rfl | rfl | rfl | rfl <;>
    simp [Calls, AnyTwoFit, SizeOk, u32]

section
variable (R : LeCaR.Arith) (cs : Nat) (adm : Adm) (draws : List Nat) (vt0 : ObjId → Int)

theorem C01_capacity_LeCaRv0_partial : Capacity (LeCaRv0_A R) (LeCaRv0_new R cs adm draws vt0) (Calls {} (AnyTwoFit cs 0)) cs :=
  (LeCaRv0.contract R cs).capacity (LeCaRv0.inv_init cs adm draws vt0)

theorem C02_accounting_LeCaRv0_partial : Accounting (LeCaRv0_A R) LeCaRv0_cached (LeCaRv0_new R cs adm draws vt0) (Calls {} (AnyTwoFit cs 0)) 0 :=
  (LeCaRv0.contract R cs).accounting (LeCaRv0.inv_init cs adm draws vt0)

theorem C03_hitIffCached_LeCaRv0_partial : HitIffCached (LeCaRv0_A R) LeCaRv0_cached (LeCaRv0_new R cs adm draws vt0) (Calls {} (AnyTwoFit cs 0)) :=
  (LeCaRv0.contract R cs).hitIffCached (LeCaRv0.inv_init cs adm draws vt0)

theorem C04_noPhantom_LeCaRv0_partial : NoPhantom (LeCaRv0_A R) LeCaRv0_cached (LeCaRv0_new R cs adm draws vt0) (Calls {} (AnyTwoFit cs 0)) :=
  (LeCaRv0.contract R cs).noPhantom (LeCaRv0.inv_init cs adm draws vt0) rfl (fun _ _ _ _ id hi he => LeCaRv0.removeGone id hi he)

theorem C04_addsOnlyRequested_LeCaRv0_partial : AddsOnlyRequested (LeCaRv0_A R) LeCaRv0_cached (LeCaRv0_new R cs adm draws vt0) (Calls {} (AnyTwoFit cs 0)) :=
  (LeCaRv0.contract R cs).addsOnlyRequested (LeCaRv0.inv_init cs adm draws vt0)

theorem C05_admittedMissCached_LeCaRv0_partial :
    AdmittedMissCached (LeCaRv0_A R) LeCaRv0_cached (fun s r => admitsBase s.out r) (LeCaRv0_new R cs adm draws vt0) (Calls {} (AnyTwoFit cs 0)) := by
  intro ops out s ho hr r hok hn ha
  have C := LeCaRv0.contract R cs
  have hi := C.reach (LeCaRv0.inv_init cs adm draws vt0) ho hr
  obtain ⟨s1, hf, hi1, hcase⟩ := C.miss r hok hi hn
  obtain ⟨s1', k1, _, _, _, k5, _⟩ := LeCaRv0.find_miss (LeCaRv0.frame hi (s.out.nReq + 1) s.out.adm) r hn
  have e : s1 = s1' := by
    have : LeCaRv0.find ((LeCaRv0_A R).bump s) r true = .ok (false, s1) := hf
    rw [show LeCaRv0.find ((LeCaRv0_A R).bump s) r true = .ok (false, s1') from k1] at this
    cases this; rfl
  have had : ((LeCaRv0_A R).canInsert s1 r).1 = true := by
    rw [LeCaRv0.can_eq hi1, e, k5]
    simpa [admitsBase, hi.csz, hi.mdz] using ha
  rcases hcase with ⟨hc, _⟩ | ⟨_, s3, s4, vs, hg, h3, hrd, hn3, hme, hins, _⟩
  · rw [had] at hc; cases hc
  · exact ⟨s4, hg, (LeCaRv0.insertAlways h3 hrd hn3 hme hins).symm.subset (by simp)⟩

theorem C06_evictOnDemand_LeCaRv0_partial : EvictOnDemand (LeCaRv0_A R) LeCaRv0_cached (LeCaRv0_new R cs adm draws vt0) (Calls {} (AnyTwoFit cs 0)) cs 0 :=
  (LeCaRv0.contract R cs).evictOnDemand (LeCaRv0.inv_init cs adm draws vt0) (fun r hi _ hr hn hm hs => Or.inl (LeCaRv0.insertAlways hi hr hn hm hs))

theorem C07_removeExact_LeCaRv0_partial : RemoveExact (LeCaRv0_A R) LeCaRv0_cached (LeCaRv0_new R cs adm draws vt0) (Calls {} (AnyTwoFit cs 0)) := by
  intro ops out s ho hr id
  obtain ⟨s', h1, _, h3, _⟩ := LeCaRv0.remove_spec ((LeCaRv0.contract R cs).reach (LeCaRv0.inv_init cs adm draws vt0) ho hr) id
  exact ⟨s', h1, h3⟩

/-- C08: a request that is not admitted leaves both expert caches unchanged.  (It does count as a miss for the histories and the weights.) -/
theorem C08_rejectQuiet_LeCaRv0_partial :
    RejectQuiet (LeCaRv0_A R) LeCaRv0_cached (fun s r => admitsBase s.out r) (fun s => (s.lru, s.lfu)) (LeCaRv0_new R cs adm draws vt0) (Calls {} (AnyTwoFit cs 0)) := by
  intro ops out s ho hr r hok hn ha
  have hi := (LeCaRv0.contract R cs).reach (LeCaRv0.inv_init cs adm draws vt0) ho hr
  obtain ⟨s1, k1, k2, k3, k4, k5, _⟩ := LeCaRv0.find_miss (LeCaRv0.frame hi (s.out.nReq + 1) s.out.adm) r hn
  have hc := LeCaRv0.can_eq k2 r
  have had : ((s1.out.adm.admit r).1 && decide (r.size ≤ cs)) = false := by
    rw [k5]; simpa [admitsBase, hi.csz, hi.mdz] using ha
  rw [had] at hc
  exact ⟨_, get_reject (show (LeCaRv0_A R).find ((LeCaRv0_A R).bump s) r true = .ok (false, s1) from k1) hc, by simp only [k3, k4]⟩

theorem C09_safe_LeCaRv0_partial : Safe (LeCaRv0_A R) (LeCaRv0_new R cs adm draws vt0) (Calls {} (AnyTwoFit cs 0)) :=
  (LeCaRv0.contract R cs).safe (LeCaRv0.inv_init cs adm draws vt0)

theorem C09_evictsOne_LeCaRv0_partial : EvictsOne (LeCaRv0_A R) LeCaRv0_cached (LeCaRv0_new R cs adm draws vt0) (Calls {} (AnyTwoFit cs 0)) := by
  intro ops out s ho hr hne r
  obtain ⟨s', v, h1, _, h3, _⟩ := LeCaRv0.evict_spec ((LeCaRv0.contract R cs).reach (LeCaRv0.inv_init cs adm draws vt0) ho hr) r hne
  exact ⟨v, s', h1, h3⟩

/-! ## C79: two experts -/

/-- C79: every sequence of calls gives the answers and the state of the two textbook experts with their histories and weight (`Verif/Spec/Experts.lean`). -/
theorem C79_experts_LeCaRv0_partial (ops : List Op) (ho : ∀ op ∈ ops, Calls {} (AnyTwoFit cs 0) op) :
    ∃ out s, Reaches (LeCaRv0_A R) (LeCaRv0_new R cs adm draws vt0) ops out s ∧
      Experts.run (LeCaRv0_weighing R) cs (LeCaRv0_start R adm draws vt0) ops = (out, LeCaRv0_view s) := by
  obtain ⟨s, h1, _, h3⟩ := LeCaRv0.run_spec ops (LeCaRv0.inv_init cs adm draws vt0) ho
  have e : LeCaRv0_start R adm draws vt0 = LeCaRv0.view (LeCaRv0_new R cs adm draws vt0) := by
    rfl
  rw [e]
  exact ⟨_, s, h1, Prod.ext rfl h3.symm⟩

/-- C79: the two experts always hold the same objects, which are those of the cache. -/
theorem C79_sameObjects_LeCaRv0_partial (ops : List Op) (out : List Bool) (s : LeCaRv0.State R) (ho : ∀ op ∈ ops, Calls {} (AnyTwoFit cs 0) op)
    (hr : Reaches (LeCaRv0_A R) (LeCaRv0_new R cs adm draws vt0) ops out s) :
    (LeCaRv0_view s).recent.Perm (LeCaRv0_cached s) ∧ ((LeCaRv0_view s).frequent.map Item.entry).Perm (LeCaRv0_cached s) := by
  have hi := (LeCaRv0.contract R cs).reach (LeCaRv0.inv_init cs adm draws vt0) ho hr
  exact ⟨hi.lru.order_perm, ((LFU.sim cs 0).contents hi.lfu).trans hi.same.symm⟩

/-- C79: if the LRU expert always prevails, LeCaRv0 is LRU. -/
theorem C79_isLRU_LeCaRv0_partial (hw : ∀ w x, R.lruWins w x = true) :
    Follows (LeCaRv0_A R) (LeCaRv0_new R cs adm draws vt0) (Calls {} (AnyTwoFit cs 0)) lru cs 0 ⟨[], adm⟩ (fun s => ⟨(LeCaRv0_view s).recent, s.out.adm⟩) :=
  (LeCaRv0.projects_lru hw).follows (LeCaRv0.inv_init cs adm draws vt0)

/-- C79: if the LFU expert always prevails, LeCaRv0 is LFU. -/
theorem C79_isLFU_LeCaRv0_partial (hw : ∀ w x, R.lruWins w x = false) :
    Follows (LeCaRv0_A R) (LeCaRv0_new R cs adm draws vt0) (Calls {} (AnyTwoFit cs 0)) lfu cs 0 ⟨[], adm⟩ (fun s => ⟨(LeCaRv0_view s).frequent, s.out.adm⟩) :=
  (LeCaRv0.projects_lfu hw).follows (LeCaRv0.inv_init cs adm draws vt0)

end

/-- the hypotheses of the theorems above are met by the demo run; next an eviction by the LRU expert: the weight is 50 again and 10 is drawn -/
example : (∀ op ∈ LeCaRv0_ops, Calls {} (AnyTwoFit 7 0) op) ∧
    ((LeCaRv0_A LeCaR_R).evict LeCaRv0_demo ⟨0, 1, -2⟩).map (fun s => ((LeCaRv0_view s).recent, (LeCaRv0_view s).pastLru, (LeCaRv0_view s).timeLru 6, (LeCaRv0_view s).pastLfu)) =
      .ok ([(10, 1), (4, 2)], [(6, 1)], 19, [(11, 3)]) :=
  ⟨LeCaRv0_demo_calls, by decide +kernel⟩

/-- C09 fails for an object larger than half of the cache: its victim does not fit into the history, and the time is written through a null pointer.  Here object 1
has two accesses, object 2 (6 of 10 bytes) has one, the LFU expert prevails and object 2 is evicted. -/
theorem C09_safe_fails_LeCaRv0 : ¬ Safe (LeCaRv0_A LeCaR_R) (LeCaRv0_new LeCaR_R 10 .none [99] (fun _ => 0)) (Calls {} (SizeOk 0)) := by
  intro h
  obtain ⟨out, s, hr⟩ := h [.get ⟨1, 3, -2⟩, .get ⟨1, 3, -2⟩, .get ⟨2, 6, -2⟩, .get ⟨3, 2, -2⟩] (by simp [Calls, SizeOk, u32])
  have h2 : (LeCaRv0_A LeCaR_R).run (LeCaRv0_new LeCaR_R 10 .none [99] (fun _ => 0)) [.get ⟨1, 3, -2⟩, .get ⟨1, 3, -2⟩, .get ⟨2, 6, -2⟩, .get ⟨3, 2, -2⟩] = .error .nullDeref :=
    res_err (by decide +kernel)
  unfold Reaches at hr
  rw [h2] at hr
  cases hr

/-- the answer of `to_evict` -/
def LeCaRv0_toEvict {R : LeCaR.Arith} (s : LeCaRv0.State R) : Option ObjId := (ansOf (LeCaRv0.toEvict s)).join

/-- C10 fails: `to_evict` returns NULL when the LFU expert prevails, although the next `evict` evicts an object; and it uses up a random number. -/
theorem C10_toEvictPredicts_fails_LeCaRv0 :
    (¬ ToEvictPredicts (LeCaRv0_A LeCaR_R) LeCaRv0_cached LeCaRv0_toEvict (LeCaRv0_new LeCaR_R 10 .none [99] (fun _ => 0)) (Calls {} (AnyTwoFit 10 0))) ∧
    ∀ (R : LeCaR.Arith) (s : LeCaRv0.State R) (a : Option ObjId) (s' : LeCaRv0.State R), LeCaRv0.toEvict s = .ok (a, s') → s'.picks = s.picks.tail := by
  refine ⟨fun h => ?_, ?_⟩
  · obtain ⟨id, n, s', h1, _⟩ := h [.get ⟨1, 3, -2⟩] [false] _ (by simp [Calls, AnyTwoFit, SizeOk, u32]) (reaches_after (by decide +kernel)) (by decide +kernel) ⟨0, 1, -2⟩
    have h2 : LeCaRv0_toEvict (after (LeCaRv0_A LeCaR_R) (LeCaRv0_new LeCaR_R 10 .none [99] (fun _ => 0)) [.get ⟨1, 3, -2⟩]) = none := by decide +kernel
    rw [h2] at h1
    cases h1
  · intro R s a s' h
    unfold LeCaRv0.toEvict at h
    split at h
    · cases h; rfl
    · split at h
      · cases h
      · cases h; rfl

end Verif.Props
