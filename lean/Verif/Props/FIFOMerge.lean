import Verif.Proof.FIFOMerge
import Verif.Props.SLRU
/-!
# Properties of FIFO_Merge (libCacheSim/cache/eviction/FIFO_Merge.c)

The statements are those of `Verif/Spec/Cache.lean` and `Verif/Spec/Merge.lean`.  They hold for every cache size, admission policy, number of objects examined and kept,
sorting function, rounding and sequence of random numbers, and for every sequence of client calls without `remove` (see
`C09_safe_fails_FIFOMerge_removeNext`), with a retain policy other than `none` (see `C09_safe_fails_FIFOMerge_none`).
-/

namespace Verif.Props
open Verif Verif.Spec
set_option linter.unusedVariables false
set_option maxRecDepth 20000

/-- what FIFO_Merge has cached -/
abbrev FIFOMerge_cached (s : FIFOMerge.State) : Contents := s.base.cached

/-- the calls without `remove` -/
abbrev FIFOMerge_calls : Perms := { rem := false }

/-- how the retain policies rank objects -/
abbrev FIFOMerge_ranking (P : FIFOMerge.Params) : Merge.Ranking := FIFOMerge.ranking P

/-- examine four objects, keep one, by frequency -/
def FIFOMerge_P (pol : FIFOMerge.Policy) : FIFOMerge.Params where
  nExam := 4
  nKeep := 1
  policy := pol
  R := Hyperbolic.Rounding.exact
  S := FIFOMerge.insertion
  pos := by decide
  le := by decide

abbrev FIFOMerge_F : FIFOMerge.Params := FIFOMerge_P .frequency

/-- hits, evictions from the queue's end, a scan, a doomed object, a second scan past the end of the queue, an explicit eviction and insertion -/
def FIFOMerge_ops : List Op := [.get ⟨1, 1, -2⟩, .get ⟨2, 1, -2⟩, .get ⟨3, 1, -2⟩, .get ⟨4, 1, -2⟩, .get ⟨5, 1, -2⟩, .get ⟨1, 1, -2⟩, .get ⟨6, 1, -2⟩, .find ⟨2, 1, -2⟩ true,
  .get ⟨7, 1, -2⟩, .get ⟨8, 1, -2⟩, .get ⟨9, 1, -2⟩, .get ⟨2, 1, -2⟩, .get ⟨50, 50, -2⟩, .get ⟨10, 1, -2⟩, .find ⟨1, 1, -2⟩ false, .evict ⟨0, 0, -2⟩, .insert ⟨11, 1, -2⟩, .get ⟨12, 2, -2⟩]

def FIFOMerge_start : FIFOMerge.State := FIFOMerge.init 6 0 .none demoPicks
def FIFOMerge_demo : FIFOMerge.State := after (FIFOMerge.algo FIFOMerge_F) FIFOMerge_start FIFOMerge_ops

section
variable (P : FIFOMerge.Params) (hP : P.policy ≠ .none) (hn : P.nExam ≤ 2147483647) (cs md : Nat) (adm : Adm) (picks : List Nat)
include hP hn

theorem C01_capacity_FIFOMerge_partial : Capacity (FIFOMerge.algo P) (FIFOMerge.init cs md adm picks) (Calls FIFOMerge_calls (SizeOk md)) cs :=
  (FIFOMerge.strong P hP cs md).capacity (FIFOMerge.inv_init P cs md adm picks hn)

theorem C02_accounting_FIFOMerge_partial : Accounting (FIFOMerge.algo P) FIFOMerge_cached (FIFOMerge.init cs md adm picks) (Calls FIFOMerge_calls (SizeOk md)) md :=
  (FIFOMerge.strong P hP cs md).accounting (FIFOMerge.inv_init P cs md adm picks hn)

theorem C03_hitIffCached_FIFOMerge_partial : HitIffCached (FIFOMerge.algo P) FIFOMerge_cached (FIFOMerge.init cs md adm picks) (Calls FIFOMerge_calls (SizeOk md)) :=
  (FIFOMerge.strong P hP cs md).hitIffCached (FIFOMerge.inv_init P cs md adm picks hn)

theorem C04_noPhantom_FIFOMerge_partial : NoPhantom (FIFOMerge.algo P) FIFOMerge_cached (FIFOMerge.init cs md adm picks) (Calls FIFOMerge_calls (SizeOk md)) :=
  (FIFOMerge.strong P hP cs md).noPhantom (FIFOMerge.inv_init P cs md adm picks hn) rfl

theorem C04_addsOnlyRequested_FIFOMerge_partial : AddsOnlyRequested (FIFOMerge.algo P) FIFOMerge_cached (FIFOMerge.init cs md adm picks) (Calls FIFOMerge_calls (SizeOk md)) :=
  (FIFOMerge.strong P hP cs md).addsOnlyRequested (FIFOMerge.inv_init P cs md adm picks hn)

theorem C05_admittedMissCached_FIFOMerge_partial :
    AdmittedMissCached (FIFOMerge.algo P) FIFOMerge_cached (fun s r => admitsBase s.base r) (FIFOMerge.init cs md adm picks) (Calls FIFOMerge_calls (SizeOk md)) :=
  (FIFOMerge.strong P hP cs md).admittedMissCached (FIFOMerge.inv_init P cs md adm picks hn)

theorem C06_evictOnDemand_FIFOMerge_partial : EvictOnDemand (FIFOMerge.algo P) FIFOMerge_cached (FIFOMerge.init cs md adm picks) (Calls FIFOMerge_calls (SizeOk md)) cs md :=
  (FIFOMerge.strong P hP cs md).evictOnDemand (FIFOMerge.inv_init P cs md adm picks hn)

/-- `core` is the whole state but the request counter and the admission policy's state. -/
theorem C08_rejectQuiet_FIFOMerge_partial :
    RejectQuiet (FIFOMerge.algo P) FIFOMerge_cached (fun s r => admitsBase s.base r) FIFOMerge.core (FIFOMerge.init cs md adm picks) (Calls FIFOMerge_calls (SizeOk md)) :=
  (FIFOMerge.strong P hP cs md).rejectQuiet (FIFOMerge.inv_init P cs md adm picks hn)

theorem C09_safe_FIFOMerge_partial : Safe (FIFOMerge.algo P) (FIFOMerge.init cs md adm picks) (Calls FIFOMerge_calls (SizeOk md)) :=
  (FIFOMerge.strong P hP cs md).safe (FIFOMerge.inv_init P cs md adm picks hn)

theorem C09_evictsOne_FIFOMerge_partial : EvictsOne (FIFOMerge.algo P) FIFOMerge_cached (FIFOMerge.init cs md adm picks) (Calls FIFOMerge_calls (SizeOk md)) :=
  (FIFOMerge.spec P hP cs md).evictsOne (FIFOMerge.strong P hP cs md) (FIFOMerge.inv_init P cs md adm picks hn) rfl

/-- C80: every run gives the answers, the queue, the place of the hand and the doomed objects of the textbook discipline (`Spec/Merge.lean`), where the time is the number of
requests so far. -/
theorem C80_merge_FIFOMerge_partial :
    FollowsClocked (FIFOMerge.algo P) (FIFOMerge.init cs md adm picks) (Calls FIFOMerge_calls (SizeOk md)) (Merge.merge (FIFOMerge_ranking P) P.nExam P.nKeep) cs md
      ⟨0, ⟨{ queue := [], hand := none, doomed := [], draws := picks }, adm⟩⟩ (fun s => ⟨s.base.nReq, ⟨FIFOMerge.view P s, s.base.adm⟩⟩) := by
  have h := CSim.follows (FIFOMerge.spec P hP cs md).multi (FIFOMerge.sim P hP cs md) (FIFOMerge.inv_init P cs md adm picks hn)
  have e : FIFOMerge.view P (FIFOMerge.init cs md adm picks) = { queue := [], hand := none, doomed := [], draws := picks } := by
    simp [FIFOMerge.view, FIFOMerge.init, FIFOMerge.pend, FIFOMerge.ptrId, viewOf_nil]
  unfold cview tview at h
  rw [e] at h
  exact h

end

/-- the demo run: the last request takes the last doomed object, makes a second scan past the end of the queue and dooms another one -/
theorem FIFOMerge_demo_reached : Reaches (FIFOMerge.algo FIFOMerge_F) FIFOMerge_start FIFOMerge_ops
      [false, false, false, false, false, true, false, true, false, false, false, true, false, false, true, true, true, false] FIFOMerge_demo ∧
    FIFOMerge.view FIFOMerge_F FIFOMerge_demo = { queue := [⟨12, 2, 0, 14, -2⟩, ⟨11, 1, 0, 13, -2⟩, ⟨10, 1, 0, 13, -2⟩, ⟨2, 1, 2, 11, -2⟩, ⟨1, 1, 1, 6, -2⟩], hand := some 2, doomed := [10], draws := [] } :=
  ⟨reaches_after (by decide +kernel), by decide +kernel⟩

theorem FIFOMerge_demo_calls : ∀ op ∈ FIFOMerge_ops, Calls FIFOMerge_calls (SizeOk 0) op := by
  intro op hop
  simp only [FIFOMerge_ops, List.mem_cons, List.not_mem_nil, or_false] at hop
  rcases hop with rfl | rfl | rfl | rfl | rfl | rfl | rfl | rfl | rfl | rfl | rfl | rfl | rfl | rfl | rfl | rfl | rfl | rfl <;> simp [Calls, SizeOk, u32]

/-- the hypotheses of the theorems above; an admitted miss that needs evictions, a rejected one -/
example : FIFOMerge_F.policy ≠ .none ∧ FIFOMerge_F.nExam ≤ 2147483647 ∧ 7 ∉ (FIFOMerge_cached FIFOMerge_demo).ids ∧
    admitsBase FIFOMerge_demo.base ⟨7, 4, -2⟩ = true ∧ admitsBase FIFOMerge_demo.base ⟨7, 7, -2⟩ = false := by
  refine ⟨?_, ?_, ?_, ?_, ?_⟩ <;> decide +kernel

/-! ## C80: what is kept -/

/-- C80: no object of an examined window that is thrown out is ranked above one that is kept, if no object of the window has size 0. -/
theorem C80_keepsBest_FIFOMerge (P : FIFOMerge.Params) (hP : P.policy ≠ .none) (t : Merge.St) (now : Nat) (hid : (t.queue.map (·.id)).Nodup) (hlt : P.nExam < t.queue.length)
    (hhand : ∀ h, t.hand = some h → h ∈ t.queue.map (·.id)) (hpos : ∀ x ∈ t.queue, 0 < x.size)
    (a b : FIFOMerge.Dbl × ObjId) (ha : a ∈ (Merge.ranks (FIFOMerge_ranking P) now (Merge.window P.nExam t) t.draws).1)
    (hb : b ∈ (Merge.ranks (FIFOMerge_ranking P) now (Merge.window P.nExam t) t.draws).1)
    (hout : a.2 ∈ Merge.victims (FIFOMerge_ranking P) P.nExam P.nKeep now t) (hkeep : b.2 ∉ Merge.victims (FIFOMerge_ranking P) P.nExam P.nKeep now t) :
    FIFOMerge.Dbl.lt b.1 a.1 = false := by
  obtain ⟨hsub, hnd, _⟩ := FIFOMerge.window_ok P.nExam hid hlt hhand
  refine FIFOMerge.cut_sorted P ?_ ?_ _ ha hb hout hkeep
  · intro e he
    obtain ⟨x, hx, d, rfl⟩ := FIFOMerge.ranks_mem he
    exact FIFOMerge.rank_ne_nan hP (hpos x (hsub x hx)) now d
  · have e := FIFOMerge.ranks_ids (FIFOMerge_ranking P) now (Merge.window P.nExam t) t.draws
    exact (congrArg List.Nodup e).mpr hnd

/-- C80: by frequency, of two objects of one size the one with more hits ranks no lower, whatever random numbers are drawn. -/
theorem C80_frequency_FIFOMerge (P : FIFOMerge.Params) (hP : P.policy = .frequency) (x y : Merge.Seen) (hs : x.size = y.size) (h0 : 0 < x.size) (h : x.hits < y.hits) (now d d' : Nat) :
    FIFOMerge.Dbl.lt ((FIFOMerge_ranking P).rank now d y) ((FIFOMerge_ranking P).rank now d' x) = false :=
  FIFOMerge.rank_frequency hP hs h0 h now d d'

/-- C80: by recency, of two objects of one size the one accessed later ranks no lower. -/
theorem C80_recency_FIFOMerge (P : FIFOMerge.Params) (hP : P.policy = .recency) (x y : Merge.Seen) (hs : x.size = y.size) (h0 : 0 < x.size) (now : Nat) (h : x.last < y.last) (hn : y.last ≤ now)
    (d d' : Nat) : FIFOMerge.Dbl.lt ((FIFOMerge_ranking P).rank now d y) ((FIFOMerge_ranking P).rank now d' x) = false :=
  FIFOMerge.rank_recency hP hs h0 now h hn d d'

/-- C80: by Belady, of two objects of one size the one accessed again sooner ranks no lower; 2^63 − 1 means never. -/
theorem C80_belady_FIFOMerge (P : FIFOMerge.Params) (hP : P.policy = .belady) (x y : Merge.Seen) (hs : x.size = y.size) (h0 : 0 < x.size) (now : Nat) (hn : (now : Int) ≤ y.next) (h : y.next < x.next)
    (hx : x.next ≤ 9223372036854775807) (d d' : Nat) :
    FIFOMerge.Dbl.lt ((FIFOMerge_ranking P).rank now d y) ((FIFOMerge_ranking P).rank now d' x) = false :=
  FIFOMerge.rank_belady hP hs h0 now hn h hx d d'

/-- concrete ranks: strictly above in each case -/
example : FIFOMerge.Dbl.lt ((FIFOMerge_ranking (FIFOMerge_P .frequency)).rank 9 999 ⟨1, 3, 0, 5, -2⟩) ((FIFOMerge_ranking (FIFOMerge_P .frequency)).rank 9 0 ⟨2, 3, 1, 2, -2⟩) = true ∧
    FIFOMerge.Dbl.lt ((FIFOMerge_ranking (FIFOMerge_P .recency)).rank 9 0 ⟨1, 3, 0, 2, -2⟩) ((FIFOMerge_ranking (FIFOMerge_P .recency)).rank 9 0 ⟨2, 3, 0, 5, -2⟩) = true ∧
    FIFOMerge.Dbl.lt ((FIFOMerge_ranking (FIFOMerge_P .belady)).rank 9 0 ⟨1, 3, 0, 2, 9223372036854775807⟩) ((FIFOMerge_ranking (FIFOMerge_P .belady)).rank 9 0 ⟨2, 3, 0, 5, 12⟩) = true := by
  refine ⟨?_, ?_, ?_⟩ <;> decide +kernel

/-- a scan of the demo: of 1, 2, 3 and 4, where 1 and 2 have been hit, 4 and 3 go -/
example : let s := after (FIFOMerge.algo FIFOMerge_F) FIFOMerge_start (FIFOMerge_ops.take 8)
    (Merge.window 4 (FIFOMerge.view FIFOMerge_F s)).map (fun x => (x.id, x.hits)) = [(1, 1), (2, 1), (3, 0), (4, 0)] ∧
    Merge.victims (FIFOMerge_ranking FIFOMerge_F) 4 1 7 (FIFOMerge.view FIFOMerge_F s) = [4, 3] := by
  decide +kernel

/-- C80: the comment "scans N objects and retains M objects, evict the rest" (FIFO_Merge.c:2) is not what happens: of N objects scanned, N − M − 1 are evicted and M + 1 retained
(if N − M is at least 2). -/
theorem C80_retains_fails_FIFOMerge (P : FIFOMerge.Params) (t : Merge.St) (now : Nat) (hid : (t.queue.map (·.id)).Nodup) (hlt : P.nExam < t.queue.length)
    (hhand : ∀ h, t.hand = some h → h ∈ t.queue.map (·.id)) (h2 : P.nKeep + 2 ≤ P.nExam) :
    (Merge.victims (FIFOMerge_ranking P) P.nExam P.nKeep now t).length = P.nExam - P.nKeep - 1 := by
  obtain ⟨_, _, hlen⟩ := FIFOMerge.window_ok P.nExam hid hlt hhand
  unfold Merge.victims
  have h1 := (FIFOMerge.order_perm P (Merge.ranks (FIFOMerge_ranking P) now (Merge.window P.nExam t) t.draws).1).length_eq
  have h3 := congrArg List.length (FIFOMerge.ranks_ids (FIFOMerge_ranking P) now (Merge.window P.nExam t) t.draws)
  rw [List.length_map (f := Merge.Seen.id), hlen] at h3
  rw [List.length_take, h1.trans h3]
  omega

/-- in the demo's first scan: four examined, one to keep, two evicted -/
example : let s := after (FIFOMerge.algo FIFOMerge_F) FIFOMerge_start (FIFOMerge_ops.take 8)
    (((FIFOMerge.view FIFOMerge_F s).queue.map (·.id)).Nodup ∧ 4 < (FIFOMerge.view FIFOMerge_F s).queue.length ∧ (FIFOMerge.view FIFOMerge_F s).hand = none) := by
  decide +kernel

/-! ## C80: few objects -/

/-- C80: if the objects are so large that never more than `nExam` of them fit (each takes at least `b` bytes with its metadata), FIFO_Merge is FIFO, for every retain policy and
also when objects are removed. -/
theorem C80_isFIFO_FIFOMerge (P : FIFOMerge.Params) (hn : P.nExam ≤ 2147483647) (cs md b : Nat) (hb : cs < (P.nExam + 1) * b) (adm : Adm) (picks : List Nat) :
    Follows (FIFOMerge.algo P) (FIFOMerge.init cs md adm picks) (Calls {} (fun r => SizeOk md r ∧ b ≤ r.size % u32 + md)) fifo cs md ⟨[], adm⟩
      (fun s => ⟨(FIFOMerge.view P s).queue.map Merge.Seen.entry, s.base.adm⟩) :=
  Sim.follows (FIFOMerge.small_spec P cs md b hb) (FIFOMerge.small_sim P cs md b hb) (FIFOMerge.small_init P cs md b adm picks hn)

/-- C07: for such objects `remove` is exact. -/
theorem C07_removeExact_FIFOMerge_partial (P : FIFOMerge.Params) (hn : P.nExam ≤ 2147483647) (cs md b : Nat) (hb : cs < (P.nExam + 1) * b) (adm : Adm) (picks : List Nat) :
    RemoveExact (FIFOMerge.algo P) FIFOMerge_cached (FIFOMerge.init cs md adm picks) (Calls {} (fun r => SizeOk md r ∧ b ≤ r.size % u32 + md)) :=
  (FIFOMerge.small_spec P cs md b hb).removeExact ((FIFOMerge.small_spec P cs md b hb).strong FIFOMerge.core (fun _ _ _ => rfl)) (FIFOMerge.small_init P cs md b adm picks hn)

/-- four objects of at least 2 bytes in 9 bytes, with a removal -/
example : 9 < (FIFOMerge_F.nExam + 1) * 2 ∧
    answers (FIFOMerge.algo FIFOMerge_F) (FIFOMerge.init 9 0 .none demoPicks) [.get ⟨1, 2, -2⟩, .get ⟨2, 2, -2⟩, .get ⟨3, 3, -2⟩, .get ⟨1, 2, -2⟩, .get ⟨4, 3, -2⟩, .remove 2, .get ⟨1, 2, -2⟩, .get ⟨3, 3, -2⟩] =
      some [false, false, false, true, false, true, false, true] := by
  refine ⟨?_, ?_⟩ <;> decide +kernel

/-! ## What fails -/

/-- C09: `remove` does not look at the place where the next scan starts.  Here the scan stopped at object 5; it is removed, and the next scan reads it. -/
theorem C09_safe_fails_FIFOMerge_removeNext : (∀ op ∈ FIFOMerge_ops.take 9 ++ [.get ⟨20, 1, -2⟩, .remove 5, .get ⟨21, 1, -2⟩, .get ⟨22, 1, -2⟩], Calls {} (SizeOk 0) op) ∧
    faultOf (FIFOMerge.algo FIFOMerge_F) FIFOMerge_start (FIFOMerge_ops.take 9 ++ [.get ⟨20, 1, -2⟩, .remove 5, .get ⟨21, 1, -2⟩, .get ⟨22, 1, -2⟩]) = some .useAfterFree :=
  ⟨by simp [FIFOMerge_ops, Calls, SizeOk, u32], by decide +kernel⟩

/-- C09: nor does `remove` look at the objects that are to be evicted next.  Here object 3 is doomed; it is removed, and the next eviction unlinks it again. -/
theorem C09_safe_fails_FIFOMerge_removeDoomed : (∀ op ∈ FIFOMerge_ops.take 9 ++ [.remove 3, .evict ⟨0, 0, -2⟩], Calls {} (SizeOk 0) op) ∧
    faultOf (FIFOMerge.algo FIFOMerge_F) FIFOMerge_start (FIFOMerge_ops.take 9 ++ [.remove 3, .evict ⟨0, 0, -2⟩]) = some .useAfterFree :=
  ⟨by simp [FIFOMerge_ops, Calls, SizeOk, u32], by decide +kernel⟩

/-- C09: with the retain policy `none` the first scan aborts. -/
theorem C09_safe_fails_FIFOMerge_none : (∀ op ∈ FIFOMerge_ops.take 9, Calls {} (SizeOk 0) op) ∧
    faultOf (FIFOMerge.algo (FIFOMerge_P .none)) FIFOMerge_start (FIFOMerge_ops.take 9) = some .abort :=
  ⟨by simp [FIFOMerge_ops, Calls, SizeOk, u32], by decide +kernel⟩

/-- C10: `to_evict` of FIFO_Merge aborts. -/
theorem C10_toEvict_fails_FIFOMerge (s : FIFOMerge.State) : FIFOMerge.toEvict s = .error .abort := rfl

end Verif.Props
