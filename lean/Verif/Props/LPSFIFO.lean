import Verif.Proof.LPSFIFO
import Verif.Props.Demo
/-!
# Properties of LP_SFIFO (libCacheSim/cache/eviction/fifo/LP_SFIFO.c)

The statements are those of `Verif/Spec/Cache.lean` and `Verif/Spec/LazySegments.lean`.  They hold for every cache size `cs`, every number `n ≥ 1` of segments with
any limits that together do not exceed the cache size, every admission policy, and every sequence of client calls without `evict` (for the statements that
bound `find` without update: that call changes counters).  The theorems named `_fails` show what goes wrong outside these bounds.
-/

namespace Verif.Props
open Verif Verif.Spec Verif.Spec.LazySegments
set_option linter.unusedVariables false
set_option maxRecDepth 20000

/-- what LP_SFIFO has cached: the objects of its segments -/
abbrev LPSFIFO_cached (s : LPSFIFO.State) : Contents := LPSFIFO.cached s

/-- the objects of each segment with their counters, newest first -/
abbrev LPSFIFO_segs (s : LPSFIFO.State) : Segs := LPSFIFO.segs s

/-- every call but `evict` -/
abbrev LPSFIFO_calls : Op → Prop := Calls { ev := false } (fun _ => True)

/-- `get`, `find` with update and `remove` -/
abbrev LPSFIFO_few : Op → Prop := Calls { peek := false, ev := false, ins := false } (fun _ => True)

/-- a demo run on three segments of 4 bytes: hits in several segments, promotions with demotions, evictions, removals, a too large object, an insertion -/
def LPSFIFO_ops : List Op := [.get ⟨1, 3, -2⟩, .get ⟨2, 3, -2⟩, .get ⟨3, 3, -2⟩, .get ⟨2, 3, -2⟩, .get ⟨1, 3, -2⟩, .get ⟨4, 2, -2⟩, .get ⟨5, 1, -2⟩,
  .get ⟨6, 4, -2⟩, .get ⟨6, 4, -2⟩, .get ⟨7, 3, -2⟩, .find ⟨7, 3, -2⟩ true, .remove 3, .remove 9, .get ⟨8, 5, -2⟩, .get ⟨9, 2, -2⟩]

/-- three segments of 4 bytes -/
def LPSFIFO_lim : Nat → Nat := fun i => if i < 3 then 4 else 0

def LPSFIFO_demo0 : LPSFIFO.State := LPSFIFO.init 12 .none 3 LPSFIFO_lim
def LPSFIFO_demo : LPSFIFO.State := after LPSFIFO.algo LPSFIFO_demo0 LPSFIFO_ops

/-- The calls of the demo run are among those considered, and so is its cache. -/
example : (∀ op ∈ LPSFIFO_ops, LPSFIFO_few op) ∧ (∀ op ∈ LPSFIFO_ops ++ [.find ⟨6, 4, -2⟩ false, .insert ⟨10, 1, -2⟩], LPSFIFO_calls op) ∧ 0 < 3 ∧
    ((List.range 3).map LPSFIFO_lim).sum ≤ 12 := by
  refine ⟨?_, ?_, by omega, by decide⟩ <;> simp [LPSFIFO_ops, Calls]

theorem LPSFIFO_demo_reached : Reaches LPSFIFO.algo LPSFIFO_demo0 LPSFIFO_ops
      [false, false, false, true, true, false, false, false, true, false, true, true, false, false, false] LPSFIFO_demo ∧
    LPSFIFO_segs LPSFIFO_demo 0 = [⟨7, 3, 1⟩] ∧ LPSFIFO_segs LPSFIFO_demo 1 = [⟨6, 4, 0⟩] ∧ LPSFIFO_segs LPSFIFO_demo 2 = [⟨9, 2, 0⟩] ∧
    LPSFIFO_cached LPSFIFO_demo = [(7, 3), (6, 4), (9, 2)] :=
  ⟨reaches_after (by decide +kernel), by decide +kernel, by decide +kernel, by decide +kernel, by decide +kernel⟩

section
variable (cs n : Nat) (lim : Nat → Nat) (adm : Adm) (hn : 0 < n) (hs : ((List.range n).map lim).sum ≤ cs)
include hn hs

theorem C01_capacity_LPSFIFO_partial : Capacity LPSFIFO.algo (LPSFIFO.init cs adm n lim) LPSFIFO_calls cs := by
  intro ops out s ho hr
  have h := LPSFIFO.anyReach (z := ⟨cs, n, lim⟩) ⟨hn, hs⟩ (fun op h => by rintro r rfl; exact absurd (ho _ h) (by simp [Calls])) hr
  show LPSFIFO.occ s ≤ _
  rw [h.arr.occ]; exact_mod_cast h.cap

/-- What is proved of C02: `get_occupied_byte` is right. -/
theorem C02_bytes_LPSFIFO_partial (ops : List Op) (out : List Bool) (s : LPSFIFO.State) (ho : ∀ op ∈ ops, LPSFIFO_calls op)
    (hr : Reaches LPSFIFO.algo (LPSFIFO.init cs adm n lim) ops out s) : LPSFIFO.algo.occ s = (bytes 0 (LPSFIFO_cached s) : Nat) := by
  have h := LPSFIFO.anyReach (z := ⟨cs, n, lim⟩) ⟨hn, hs⟩ (fun op h => by rintro r rfl; exact absurd (ho _ h) (by simp [Calls])) hr
  unfold LPSFIFO_cached
  rw [h.cached, bytes_eq_charge, LPSFIFO.entries_charge]; exact h.arr.occ

theorem C03_hitIffCached_LPSFIFO_partial : HitIffCached LPSFIFO.algo LPSFIFO_cached (LPSFIFO.init cs adm n lim) LPSFIFO_few := by
  intro ops out s ho hr
  obtain ⟨h1, h2, h3⟩ := (LPSFIFO.contract (z := ⟨cs, n, lim⟩) ⟨hn, hs⟩).hitIffCached (LPSFIFO.inv_init ⟨cs, n, lim⟩ adm) ops out s ho ((LPSFIFO.reaches_iff ho).1 hr)
  refine ⟨h1, h2, fun r hr => ?_⟩
  rw [← LPSFIFO.get_eq]; exact h3 r hr

/-- What holds of `find` with or without update, after any calls but `evict`: it answers right, evicts nothing, and on a miss changes nothing. -/
theorem C03_find_LPSFIFO_partial (ops : List Op) (out : List Bool) (s : LPSFIFO.State) (ho : ∀ op ∈ ops, LPSFIFO_calls op)
    (hr : Reaches LPSFIFO.algo (LPSFIFO.init cs adm n lim) ops out s) (r : Req) (u : Bool) :
    ∃ s', LPSFIFO.algo.find s r u = .ok (decide (r.id ∈ (LPSFIFO_cached s).ids), s') ∧ LPSFIFO_cached s' = LPSFIFO_cached s ∧
      (r.id ∉ (LPSFIFO_cached s).ids → s' = s) := by
  have h := LPSFIFO.anyReach (z := ⟨cs, n, lim⟩) ⟨hn, hs⟩ (fun op h => by rintro r rfl; exact absurd (ho _ h) (by simp [Calls])) hr
  obtain ⟨s', k1, k2, k3, k4⟩ := LPSFIFO.Abs.find h r u
  refine ⟨s', ?_, ?_, fun hm => k4 (fun hx => hm ((h.mem _).2 hx))⟩
  · show LPSFIFO.find s r u = _
    rw [k1]; congr 2; rw [decide_eq_decide, h.mem]
  · unfold LPSFIFO_cached
    rw [k2.arr.cached, h.cached]
    split
    · exact LPSFIFO.hit_entries _ _ _
    · rfl

theorem C04_noPhantom_LPSFIFO_partial : NoPhantom LPSFIFO.algo LPSFIFO_cached (LPSFIFO.init cs adm n lim) LPSFIFO_few := by
  intro ops out s ho hr
  refine (LPSFIFO.contract (z := ⟨cs, n, lim⟩) ⟨hn, hs⟩).noPhantom (LPSFIFO.inv_init ⟨cs, n, lim⟩ adm) (LPSFIFO.init_cached cs n lim adm) ?_ ops out s ho ((LPSFIFO.reaches_iff ho).1 hr)
  intro _ s s' b id h hr
  obtain ⟨s2, k1, k2, _⟩ := LPSFIFO.Abs.remove h id
  have e := Except.ok.inj (k1.symm.trans hr)
  have e1 : s2 = s' := congrArg Prod.snd e
  subst e1
  rw [k2.arr.cached, LPSFIFO.entries_ids, LPSFIFO.all_remove]
  simp [ids]

theorem C04_addsOnlyRequested_LPSFIFO_partial : AddsOnlyRequested LPSFIFO.algo LPSFIFO_cached (LPSFIFO.init cs adm n lim) LPSFIFO_few := by
  intro ops out s ho hr op b s' hop hst
  exact (LPSFIFO.contract (z := ⟨cs, n, lim⟩) ⟨hn, hs⟩).addsOnlyRequested (LPSFIFO.inv_init ⟨cs, n, lim⟩ adm) ops out s ho ((LPSFIFO.reaches_iff ho).1 hr) op b s' hop
    (by rw [LPSFIFO.step_eq s op (LPSFIFO.calls_ne hop)]; exact hst)

/-- C05: the admission policy accepts the object, and it is not larger than segment 0. -/
theorem C05_admittedMissCached_LPSFIFO :
    AdmittedMissCached LPSFIFO.algo LPSFIFO_cached (fun s r => (s.base.adm.admit r).1 && decide (r.size ≤ lim 0)) (LPSFIFO.init cs adm n lim) LPSFIFO_calls := by
  intro ops out s ho hr r hok hnc ha
  have h := LPSFIFO.anyReach (z := ⟨cs, n, lim⟩) ⟨hn, hs⟩ (fun op h => by rintro r rfl; exact absurd (ho _ h) (by simp [Calls])) hr
  have hm : r.id ∉ ids (all ⟨cs, n, lim⟩ (LPSFIFO.segs s)) := fun hx => hnc ((h.mem _).2 hx)
  rw [Bool.and_eq_true, decide_eq_true_iff] at ha
  obtain ⟨s', k1, k2, k3⟩ := LPSFIFO.Abs.get ⟨hn, hs⟩ h r
  have e : LazySegments.get ⟨cs, n, lim⟩ (LPSFIFO.segs s, s.base.adm) r = (false, (LazySegments.insert ⟨cs, n, lim⟩
      (makeRoom ⟨cs, n, lim⟩ r.size (2 * (all ⟨cs, n, lim⟩ (LPSFIFO.segs s)).length) (LPSFIFO.segs s)) r, (s.base.adm.admit r).2)) := by
    rw [LazySegments.get]; exact (if_neg hm).trans (if_pos ha)
  rw [e] at k1 k2
  refine ⟨s', k1, ?_⟩
  unfold LPSFIFO_cached
  rw [k2.arr.cached]
  exact (LPSFIFO.insert_entries (LPSFIFO.target_lt ⟨hn, hs⟩ _ _) r).mem_iff.2 (by simp)

theorem C06_evictOnDemand_LPSFIFO_partial : EvictOnDemand LPSFIFO.algo LPSFIFO_cached (LPSFIFO.init cs adm n lim) LPSFIFO_few cs 0 := by
  intro ops out s ho hr r b s' hok hg
  refine (LPSFIFO.contract (z := ⟨cs, n, lim⟩) ⟨hn, hs⟩).evictOnDemand (LPSFIFO.inv_init ⟨cs, n, lim⟩ adm) ?_ ops out s ho ((LPSFIFO.reaches_iff ho).1 hr) r b s' hok
    (by rw [LPSFIFO.get_eq]; exact hg)
  intro s s' r h _ hrd hin hme hins
  obtain ⟨s2, k1, k2, _⟩ := LPSFIFO.Abs.insert ⟨hn, hs⟩ h r (fun hx => hin ((h.mem _).2 hx)) hme
  have e := Except.ok.inj (k1.symm.trans hins)
  subst e
  rw [k2.arr.cached, h.cached]
  exact Or.inl (LPSFIFO.insert_entries (LPSFIFO.target_lt ⟨hn, hs⟩ _ _) r)

theorem C07_removeExact_LPSFIFO : RemoveExact LPSFIFO.algo LPSFIFO_cached (LPSFIFO.init cs adm n lim) LPSFIFO_calls := by
  intro ops out s ho hr id
  have h := LPSFIFO.anyReach (z := ⟨cs, n, lim⟩) ⟨hn, hs⟩ (fun op h => by rintro r rfl; exact absurd (ho _ h) (by simp [Calls])) hr
  obtain ⟨s', k1, k2, _⟩ := LPSFIFO.Abs.remove h id
  refine ⟨s', ?_, ?_⟩
  · show LPSFIFO.remove s id = _
    rw [k1]; congr 2; rw [decide_eq_decide, h.mem]
  · unfold LPSFIFO_cached
    rw [k2.arr.cached, h.cached, LPSFIFO.entries, LPSFIFO.entries, LPSFIFO.all_remove, List.filter_map]; exact List.Perm.refl _

theorem C08_rejectQuiet_LPSFIFO :
    RejectQuiet LPSFIFO.algo LPSFIFO_cached (fun s r => (s.base.adm.admit r).1 && decide (r.size ≤ lim 0)) LPSFIFO_segs (LPSFIFO.init cs adm n lim) LPSFIFO_calls := by
  intro ops out s ho hr r hok hnc ha
  have h := LPSFIFO.anyReach (z := ⟨cs, n, lim⟩) ⟨hn, hs⟩ (fun op h => by rintro r rfl; exact absurd (ho _ h) (by simp [Calls])) hr
  have hm : r.id ∉ ids (all ⟨cs, n, lim⟩ (LPSFIFO.segs s)) := fun hx => hnc ((h.mem _).2 hx)
  obtain ⟨s', k1, k2, k3⟩ := LPSFIFO.Abs.get ⟨hn, hs⟩ h r
  have e : LazySegments.get ⟨cs, n, lim⟩ (LPSFIFO.segs s, s.base.adm) r = (false, (LPSFIFO.segs s, (s.base.adm.admit r).2)) := by
    rw [LazySegments.get]
    refine (if_neg hm).trans (if_neg ?_)
    intro hc
    have h1 : (s.base.adm.admit r).1 = true := hc.1
    have h2 : r.size ≤ lim 0 := hc.2
    simp [h1, h2] at ha
  rw [e] at k1 k2
  exact ⟨s', k1, k2.arr.segs⟩

theorem C09_safe_LPSFIFO_partial : Safe LPSFIFO.algo (LPSFIFO.init cs adm n lim) LPSFIFO_calls := by
  intro ops ho
  obtain ⟨out, s, h, _⟩ := LPSFIFO.Inv.run (z := ⟨cs, n, lim⟩) ⟨hn, hs⟩ ops _ (LPSFIFO.inv_init ⟨cs, n, lim⟩ adm)
    (fun op h => by rintro r rfl; exact absurd (ho _ h) (by simp [Calls]))
  exact ⟨out, s, h⟩

/-- What is proved of C10: if segment 0 holds bytes and its oldest object had no hits, then `to_evict` names that object and `evict` removes it. -/
theorem C10_toEvictPredicts_LPSFIFO_partial (ops : List Op) (out : List Bool) (s : LPSFIFO.State) (ho : ∀ op ∈ ops, LPSFIFO_calls op)
    (hr : Reaches LPSFIFO.algo (LPSFIFO.init cs adm n lim) ops out s) (hb : 0 < size (LPSFIFO_segs s 0)) (x : Item)
    (hx : (LPSFIFO_segs s 0).getLast? = some x) (hc : x.cnt = 0) (r : Req) :
    ∃ s', LPSFIFO.toEvict s = some x.id ∧ LPSFIFO.algo.evict s r = .ok s' ∧ (LPSFIFO_cached s).Perm ((x.id, x.size) :: LPSFIFO_cached s') := by
  have h := LPSFIFO.anyReach (z := ⟨cs, n, lim⟩) ⟨hn, hs⟩ (fun op h => by rintro r rfl; exact absurd (ho _ h) (by simp [Calls])) hr
  obtain ⟨s', k1, k2, k3, k4⟩ := LPSFIFO.Abs.evict ⟨hn, hs⟩ h hb
  refine ⟨s', by rw [LPSFIFO.Abs.toEvict ⟨hn, hs⟩ h hb, hx]; rfl, k1, ?_⟩
  unfold LPSFIFO_cached
  rw [k2.arr.cached, h.cached]
  have e : LazySegments.evict ⟨cs, n, lim⟩ (LPSFIFO.segs s) = put (LPSFIFO.segs s) 0 (LPSFIFO.segs s 0).dropLast := by
    rw [LazySegments.evict]; simp only [hx, hc, if_true]
  rw [e]
  obtain ⟨c, hcx⟩ := List.getLast?_eq_some_iff.1 hx
  unfold LPSFIFO_segs at hcx
  rw [hcx, List.dropLast_concat]
  exact (LPSFIFO.all_last hn hcx).map Item.entry

end

example : LPSFIFO.algo.occ LPSFIFO_demo = 9 ∧ 4 ∉ (LPSFIFO_cached LPSFIFO_demo).ids ∧ ((LPSFIFO_demo.base.adm.admit ⟨4, 2, -2⟩).1 && decide (2 ≤ LPSFIFO_lim 0)) = true ∧
    ((LPSFIFO_demo.base.adm.admit ⟨4, 5, -2⟩).1 && decide (5 ≤ LPSFIFO_lim 0)) = false ∧ (LPSFIFO.algo.get LPSFIFO_demo ⟨4, 4, -2⟩).toOption.isSome = true := by
  refine ⟨?_, ?_, ?_, ?_, ?_⟩ <;> decide +kernel

/-- a state as in `C10_toEvictPredicts_LPSFIFO_partial` -/
example : LPSFIFO_segs (after LPSFIFO.algo LPSFIFO_demo0 [.get ⟨1, 3, -2⟩, .get ⟨2, 3, -2⟩, .get ⟨3, 1, -2⟩]) 0 = [⟨3, 1, 0⟩, ⟨1, 3, 0⟩] := by decide +kernel

/-- C02 fails for `get_n_obj`: it adds up bytes.  One object of 3 bytes is cached, and the answer is 3. -/
theorem C02_nObj_fails_LPSFIFO : ∃ s, Reaches LPSFIFO.algo LPSFIFO_demo0 [.get ⟨1, 3, -2⟩] [false] s ∧ LPSFIFO_cached s = [(1, 3)] ∧ LPSFIFO.algo.nObj s = 3 :=
  ⟨_, reaches_after (by decide +kernel), by decide +kernel, by decide +kernel⟩

/-- C03 fails for `find` without update: it counts the hit, and the object survives an eviction because of it. -/
theorem C03_findPure_fails_LPSFIFO : ∃ s s', Reaches LPSFIFO.algo LPSFIFO_demo0 [.get ⟨1, 3, -2⟩] [false] s ∧
    LPSFIFO.algo.find s ⟨1, 3, -2⟩ false = .ok (true, s') ∧ LPSFIFO_segs s 0 = [⟨1, 3, 0⟩] ∧ LPSFIFO_segs s' 0 = [⟨1, 3, 1⟩] :=
  ⟨_, _, reaches_after (by decide +kernel), res_ok LPSFIFO_demo (by decide +kernel), by decide +kernel, by decide +kernel⟩

/-- C05 fails for objects that fit into the cache but not into segment 0: an object of 5 bytes is never cached in 12 bytes. -/
theorem C05_fitsCache_fails_LPSFIFO : ∃ s, Reaches LPSFIFO.algo LPSFIFO_demo0 [.get ⟨1, 5, -2⟩] [false] s ∧ LPSFIFO_cached s = [] :=
  ⟨_, reaches_after (by decide +kernel), by decide +kernel⟩

/-- C06 and C10 fail for `evict`: when the oldest object of segment 0 had a hit, `to_evict` names it, but `evict` moves it up and evicts nothing. -/
theorem C10_toEvict_fails_LPSFIFO : ∃ s, Reaches LPSFIFO.algo LPSFIFO_demo0 [.get ⟨1, 3, -2⟩, .get ⟨1, 3, -2⟩, .evict ⟨9, 1, -2⟩] [false, true, true] s ∧
    LPSFIFO.toEvict (after LPSFIFO.algo LPSFIFO_demo0 [.get ⟨1, 3, -2⟩, .get ⟨1, 3, -2⟩]) = some 1 ∧ LPSFIFO_cached s = [(1, 3)] ∧ LPSFIFO_segs s 1 = [⟨1, 3, 0⟩] :=
  ⟨_, reaches_after (by decide +kernel), by decide +kernel, by decide +kernel, by decide +kernel⟩

/-- C09 fails for `evict` when all objects are in the upper segments: the assertion that segment 0 holds bytes fails, although `to_evict` names an object. -/
theorem C09_evict_fails_LPSFIFO : faultOf LPSFIFO.algo LPSFIFO_demo0 [.get ⟨1, 4, -2⟩, .get ⟨2, 3, -2⟩, .remove 1, .evict ⟨9, 1, -2⟩] = some .assertFail ∧
    LPSFIFO.toEvict (after LPSFIFO.algo LPSFIFO_demo0 [.get ⟨1, 4, -2⟩, .get ⟨2, 3, -2⟩, .remove 1]) = some 2 := by
  constructor <;> decide +kernel

/-! ## C92 -/

/-- A sequence of requests: the hits, and the segments with their counters at the end, are those of the specification. -/
theorem C92_follows_LPSFIFO (cs n : Nat) (lim : Nat → Nat) (adm : Adm) (hn : 0 < n) (hs : ((List.range n).map lim).sum ≤ cs) (rs : List Req) :
    ∃ s', LPSFIFO.algo.gets (LPSFIFO.init cs adm n lim) rs = .ok ((LazySegments.gets ⟨cs, n, lim⟩ (fun _ => [], adm) rs).1, s') ∧
      LPSFIFO_segs s' = (LazySegments.gets ⟨cs, n, lim⟩ (fun _ => [], adm) rs).2.1 := by
  obtain ⟨s', h1, h2⟩ := LPSFIFO.Abs.gets (z := ⟨cs, n, lim⟩) ⟨hn, hs⟩ rs (fun _ => [], adm) (LPSFIFO.init cs adm n lim) (LPSFIFO.abs_init ⟨cs, n, lim⟩ adm) rfl
  exact ⟨s', h1, h2.arr.segs⟩

section
variable (cs n : Nat) (lim : Nat → Nat) (adm : Adm) (hn : 0 < n) (hs : ((List.range n).map lim).sum ≤ cs) (ops : List Op) (out : List Bool) (s : LPSFIFO.State)
  (ho : ∀ op ∈ ops, LPSFIFO_calls op) (hr : Reaches LPSFIFO.algo (LPSFIFO.init cs adm n lim) ops out s)
include hn hs ho hr

theorem LPSFIFO_inv : LPSFIFO.Inv ⟨cs, n, lim⟩ s :=
  LPSFIFO.anyReach (z := ⟨cs, n, lim⟩) ⟨hn, hs⟩ (fun op h => by rintro r rfl; exact absurd (ho _ h) (by simp [Calls])) hr

/-- One request, after any calls but `evict`. -/
theorem C92_get_LPSFIFO (r : Req) : ∃ s', LPSFIFO.algo.get s r = .ok ((LazySegments.get ⟨cs, n, lim⟩ (LPSFIFO_segs s, s.base.adm) r).1, s') ∧
    LPSFIFO_segs s' = (LazySegments.get ⟨cs, n, lim⟩ (LPSFIFO_segs s, s.base.adm) r).2.1 := by
  obtain ⟨s', h1, h2, _⟩ := LPSFIFO.Abs.get ⟨hn, hs⟩ (LPSFIFO_inv cs n lim adm hn hs ops out s ho hr) r
  exact ⟨s', h1, h2.arr.segs⟩

/-- `find`, with or without update, counts a hit and moves nothing. -/
theorem C92_find_LPSFIFO (r : Req) (u : Bool) : ∃ b s', LPSFIFO.algo.find s r u = .ok (b, s') ∧ LPSFIFO_segs s' = hit (LPSFIFO_segs s) r := by
  have h := LPSFIFO_inv cs n lim adm hn hs ops out s ho hr
  obtain ⟨s', h1, h2, _, h4⟩ := LPSFIFO.Abs.find h r u
  refine ⟨_, s', h1, ?_⟩
  unfold LPSFIFO_segs
  rw [h2.arr.segs]
  split
  · rfl
  · next hm =>
    rw [LPSFIFO.hit_eq]
    funext k
    by_cases hk : k < n
    · exact (LPSFIFO.tick_miss (fun hx => hm (LPSFIFO.mem_ids.2 ⟨k, hk, hx⟩))).symm
    · have := h.arr.out k (by show n ≤ k; omega)
      rw [this]; rfl

/-- `remove` takes the object out of its segment and leaves the order alone. -/
theorem C92_remove_LPSFIFO (id : ObjId) : ∃ b s', LPSFIFO.algo.remove s id = .ok (b, s') ∧ ∀ k, LPSFIFO_segs s' k = (LPSFIFO_segs s k).filter (fun x => x.id ≠ id) := by
  obtain ⟨s', h1, h2, _⟩ := LPSFIFO.Abs.remove (LPSFIFO_inv cs n lim adm hn hs ops out s ho hr) id
  refine ⟨_, s', h1, fun k => ?_⟩
  unfold LPSFIFO_segs
  rw [h2.arr.segs]; rfl

/-- One eviction, when segment 0 holds bytes. -/
theorem C92_evict_LPSFIFO_partial (hb : 0 < size (LPSFIFO_segs s 0)) (r : Req) :
    ∃ s', LPSFIFO.algo.evict s r = .ok s' ∧ LPSFIFO_segs s' = LazySegments.evict ⟨cs, n, lim⟩ (LPSFIFO_segs s) := by
  obtain ⟨s', h1, h2, _⟩ := LPSFIFO.Abs.evict ⟨hn, hs⟩ (LPSFIFO_inv cs n lim adm hn hs ops out s ho hr) hb
  exact ⟨s', h1, h2.arr.segs⟩

/-- Every segment but the lowest is within its limit. -/
theorem C92_limits_LPSFIFO (k : Nat) (hk : 1 ≤ k) : size (LPSFIFO_segs s k) ≤ lim k :=
  (LPSFIFO_inv cs n lim adm hn hs ops out s ho hr).within k hk

/-- Every cached object is in exactly one segment, once. -/
theorem C92_oneSegment_LPSFIFO : (∀ id, id ∈ (LPSFIFO_cached s).ids ↔ ∃ k, k < n ∧ id ∈ ids (LPSFIFO_segs s k)) ∧
    (∀ i j id, id ∈ ids (LPSFIFO_segs s i) → id ∈ ids (LPSFIFO_segs s j) → i = j) ∧ (LPSFIFO_cached s).ids.Nodup := by
  have h := LPSFIFO_inv cs n lim adm hn hs ops out s ho hr
  have out : ∀ i id, id ∈ ids (LPSFIFO_segs s i) → i < n := by
    intro i id hi
    by_contra hc
    have := h.arr.out i (by show n ≤ i; omega)
    rw [LPSFIFO_segs, this] at hi; cases hi
  refine ⟨fun id => (h.mem id).trans LPSFIFO.mem_ids, fun i j id hi hj => LPSFIFO.one_seg h.nd (out i id hi) (out j id hj) hi hj, ?_⟩
  unfold LPSFIFO_cached
  rw [h.cached, LPSFIFO.entries_ids]; exact h.nd

end

/-- a request in the demo state: object 7 had a hit and moves up to segment 1, which passes object 6 down; segment 0 is above its limit for a while, object 6 is
evicted, and the new object gets its room -/
example : (match LPSFIFO.algo.get LPSFIFO_demo ⟨4, 4, -2⟩ with
    | .ok p => some (p.1, LPSFIFO_segs p.2 0, LPSFIFO_segs p.2 1, LPSFIFO_segs p.2 2)
    | .error _ => none) = some (false, [⟨4, 4, 0⟩], [⟨7, 3, 0⟩], [⟨9, 2, 0⟩]) := by decide +kernel

/-- C92 fails for the limit of the lowest segment: with segments of 4 bytes it holds 5. -/
theorem C92_lowest_fails_LPSFIFO : ∃ s, Reaches LPSFIFO.algo LPSFIFO_demo0 [.get ⟨1, 3, -2⟩, .get ⟨2, 3, -2⟩, .get ⟨3, 3, -2⟩, .get ⟨4, 2, -2⟩]
      [false, false, false, false] s ∧ LPSFIFO_segs s 0 = [⟨4, 2, 0⟩, ⟨1, 3, 0⟩] :=
  ⟨_, reaches_after (by decide +kernel), by decide +kernel⟩

/-- Without parameters there are four segments of a quarter of the cache each. -/
theorem C92_default_LPSFIFO (cs : Nat) (adm : Adm) :
    ∃ lim, LPSFIFO.setup (fun x sum => x * cs / sum) cs adm [] = .ok (LPSFIFO.init cs adm 4 lim) ∧ (∀ k, k < 4 → lim k = cs / 4) ∧ ((List.range 4).map lim).sum ≤ cs := by
  refine ⟨fun i => [cs / 4, cs / 4, cs / 4, cs / 4].getD i 0, ?_, ?_, ?_⟩
  · simp [LPSFIFO.setup, LPSFIFO.parse, LPSFIFO.parseOne]
  · intro k hk
    have : k = 0 ∨ k = 1 ∨ k = 2 ∨ k = 3 := by omega
    rcases this with rfl | rfl | rfl | rfl <;> rfl
  · show ([cs / 4, cs / 4, cs / 4, cs / 4] : List Nat).sum ≤ cs
    simp only [List.sum_cons, List.sum_nil]; omega

/-- With the segment sizes of the user there are that many segments with these shares of the cache. -/
theorem C92_sizes_LPSFIFO (share : Nat → Nat → Nat) (cs : Nat) (adm : Adm) (parts : List Nat) (hp : parts.length ≤ 16) :
    LPSFIFO.setup share cs adm [.segSize parts] = .ok (LPSFIFO.init cs adm parts.length (fun i => (parts.map (fun x => share x parts.sum)).getD i 0)) := by
  simp [LPSFIFO.setup, LPSFIFO.parse, LPSFIFO.parseOne, hp]

/-- The number of segments alone cannot be raised: with `n-seg=8` the sizes of segments 4 to 7 are read beyond the end of the array with the default sizes. -/
theorem C92_nSeg_fails_LPSFIFO (share : Nat → Nat → Nat) (cs : Nat) (adm : Adm) (n : Nat) (hn : 4 < n) :
    LPSFIFO.setup share cs adm [.nSeg n] = .error .outOfBounds := by
  simp [LPSFIFO.setup, LPSFIFO.parse, LPSFIFO.parseOne, Nat.not_le.2 hn]

/-- More than 16 sizes are written beyond the end of an array. -/
theorem C92_parts_fails_LPSFIFO (share : Nat → Nat → Nat) (cs : Nat) (adm : Adm) (parts : List Nat) (hp : 16 < parts.length) :
    LPSFIFO.setup share cs adm [.segSize parts] = .error .outOfBounds := by
  simp [LPSFIFO.setup, LPSFIFO.parse, LPSFIFO.parseOne, Nat.not_le.2 hp]

end Verif.Props
