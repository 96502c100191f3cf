import Verif.Proof.FIFOReinsertion
import Verif.Props.FIFOMerge
/-!
# Properties of FIFO_Reinsertion (libCacheSim/cache/eviction/FIFO_Reinsertion.c)

The statements are those of `Verif/Spec/Cache.lean`, `Verif/Spec/Multi.lean` and `Verif/Spec/Reinsert.lean`.  They hold for every cache size, admission policy, number of objects examined,
smaller number of objects kept (see `C09_safe_fails_FIFOReinsertion_keepAll`), sorting function, rounding and sequence of random numbers, and for every sequence of client calls without `remove`
(see `C09_safe_fails_FIFOReinsertion_removeNext`), with a retain policy other than `none` (see `C09_safe_fails_FIFOReinsertion_none`).
-/

namespace Verif.Props
open Verif Verif.Spec
set_option linter.unusedVariables false
set_option maxRecDepth 20000

/-- what FIFO_Reinsertion has cached -/
abbrev FIFOReinsertion_cached (s : FIFOReinsertion.State) : Contents := s.base.cached

/-- the calls without `remove` -/
abbrev FIFOReinsertion_calls : Perms := { rem := false }

/-- hits, evictions from the queue's end, a scan, single evictions, a second scan, an explicit eviction and insertion -/
def FIFOReinsertion_ops : List Op := [.get ⟨1, 1, -2⟩, .get ⟨2, 1, -2⟩, .get ⟨3, 1, -2⟩, .get ⟨4, 1, -2⟩, .get ⟨5, 1, -2⟩, .get ⟨1, 1, -2⟩, .get ⟨6, 1, -2⟩, .find ⟨2, 1, -2⟩ true,
  .get ⟨7, 1, -2⟩, .get ⟨8, 1, -2⟩, .get ⟨9, 1, -2⟩, .get ⟨2, 1, -2⟩, .get ⟨50, 50, -2⟩, .get ⟨9, 1, -2⟩, .get ⟨9, 1, -2⟩, .get ⟨9, 1, -2⟩, .get ⟨10, 1, -2⟩, .find ⟨1, 1, -2⟩ false, .evict ⟨0, 0, -2⟩, .insert ⟨11, 1, -2⟩, .get ⟨12, 2, -2⟩]

def FIFOReinsertion_start : FIFOReinsertion.State := FIFOReinsertion.init 6 0 .none demoPicks
def FIFOReinsertion_demo : FIFOReinsertion.State := after (FIFOReinsertion.algo FIFOMerge_F) FIFOReinsertion_start FIFOReinsertion_ops

section
variable (P : FIFOMerge.Params) (hP : P.policy ≠ .none) (hk : P.nKeep < P.nExam) (cs md : Nat) (adm : Adm) (picks : List Nat)
include hP hk

theorem C01_capacity_FIFOReinsertion_partial : Capacity (FIFOReinsertion.algo P) (FIFOReinsertion.init cs md adm picks) (Calls FIFOReinsertion_calls (SizeOk md)) cs :=
  (FIFOReinsertion.spec P hP hk cs md).contract.capacity (FIFOReinsertion.inv_init cs md adm picks)

theorem C02_accounting_FIFOReinsertion_partial :
    Accounting (FIFOReinsertion.algo P) FIFOReinsertion_cached (FIFOReinsertion.init cs md adm picks) (Calls FIFOReinsertion_calls (SizeOk md)) md :=
  (FIFOReinsertion.spec P hP hk cs md).contract.accounting (FIFOReinsertion.inv_init cs md adm picks)

theorem C03_hitIffCached_FIFOReinsertion_partial :
    HitIffCached (FIFOReinsertion.algo P) FIFOReinsertion_cached (FIFOReinsertion.init cs md adm picks) (Calls FIFOReinsertion_calls (SizeOk md)) :=
  (FIFOReinsertion.spec P hP hk cs md).contract.hitIffCached (FIFOReinsertion.inv_init cs md adm picks)

theorem C04_noPhantom_FIFOReinsertion_partial : NoPhantom (FIFOReinsertion.algo P) FIFOReinsertion_cached (FIFOReinsertion.init cs md adm picks) (Calls FIFOReinsertion_calls (SizeOk md)) :=
  (FIFOReinsertion.spec P hP hk cs md).noPhantom (FIFOReinsertion.inv_init cs md adm picks) rfl

theorem C04_addsOnlyRequested_FIFOReinsertion_partial :
    AddsOnlyRequested (FIFOReinsertion.algo P) FIFOReinsertion_cached (FIFOReinsertion.init cs md adm picks) (Calls FIFOReinsertion_calls (SizeOk md)) :=
  (FIFOReinsertion.spec P hP hk cs md).contract.addsOnlyRequested (FIFOReinsertion.inv_init cs md adm picks)

theorem C05_admittedMissCached_FIFOReinsertion_partial : AdmittedMissCached (FIFOReinsertion.algo P) FIFOReinsertion_cached (fun s r => admitsBase s.base r)
    (FIFOReinsertion.init cs md adm picks) (Calls FIFOReinsertion_calls (SizeOk md)) :=
  (FIFOReinsertion.spec P hP hk cs md).admittedMissCached (FIFOReinsertion.inv_init cs md adm picks)

/-- What remains of C06 (see `C06_evictOnDemand_fails_FIFOReinsertion`). -/
theorem C06_evictIfNeeded_FIFOReinsertion_partial :
    EvictIfNeeded (FIFOReinsertion.algo P) FIFOReinsertion_cached (FIFOReinsertion.init cs md adm picks) (Calls FIFOReinsertion_calls (SizeOk md)) cs md :=
  (FIFOReinsertion.spec P hP hk cs md).evictIfNeeded (FIFOReinsertion.inv_init cs md adm picks)

/-- `remove` is exact in every state reached without `remove`. -/
theorem C07_removeExact_FIFOReinsertion_partial (ops : List Op) (out : List Bool) (s : FIFOReinsertion.State) (hops : ∀ op ∈ ops, Calls FIFOReinsertion_calls (SizeOk md) op)
    (hr : Reaches (FIFOReinsertion.algo P) (FIFOReinsertion.init cs md adm picks) ops out s) (id : ObjId) :
    ∃ s', (FIFOReinsertion.algo P).remove s id = .ok (decide (id ∈ (FIFOReinsertion_cached s).ids), s') ∧
      (FIFOReinsertion_cached s').Perm ((FIFOReinsertion_cached s).filter (fun x => x.1 ≠ id)) :=
  FIFOReinsertion.remove_spec ((FIFOReinsertion.spec P hP hk cs md).contract.reach (FIFOReinsertion.inv_init cs md adm picks) hops hr) id

/-- `core` is the whole state but the request counter and the admission policy's state. -/
theorem C08_rejectQuiet_FIFOReinsertion_partial : RejectQuiet (FIFOReinsertion.algo P) FIFOReinsertion_cached (fun s r => admitsBase s.base r) FIFOReinsertion.core
    (FIFOReinsertion.init cs md adm picks) (Calls FIFOReinsertion_calls (SizeOk md)) :=
  (FIFOReinsertion.spec P hP hk cs md).rejectQuiet (FIFOReinsertion.inv_init cs md adm picks) FIFOReinsertion.core (fun _ _ _ => rfl)

theorem C09_safe_FIFOReinsertion_partial : Safe (FIFOReinsertion.algo P) (FIFOReinsertion.init cs md adm picks) (Calls FIFOReinsertion_calls (SizeOk md)) :=
  (FIFOReinsertion.spec P hP hk cs md).contract.safe (FIFOReinsertion.inv_init cs md adm picks)

theorem C09_evictsSome_FIFOReinsertion_partial :
    EvictsSome (FIFOReinsertion.algo P) FIFOReinsertion_cached (FIFOReinsertion.init cs md adm picks) (Calls FIFOReinsertion_calls (SizeOk md)) :=
  (FIFOReinsertion.spec P hP hk cs md).evictsSome (FIFOReinsertion.inv_init cs md adm picks) rfl

/-- C90: every run gives the answers, the queue and the place of the hand of the textbook discipline (`Spec/Reinsert.lean`), where the time is the number of requests so far. -/
theorem C90_reinsert_FIFOReinsertion_partial :
    FollowsClocked (FIFOReinsertion.algo P) (FIFOReinsertion.init cs md adm picks) (Calls FIFOReinsertion_calls (SizeOk md)) (Reinsert.reinsert (FIFOMerge_ranking P) P.nExam P.nKeep) cs md
      ⟨0, ⟨{ queue := [], hand := none, draws := picks }, adm⟩⟩ (fun s => ⟨s.base.nReq, ⟨FIFOReinsertion.view s, s.base.adm⟩⟩) := by
  have h := CSim.follows (FIFOReinsertion.spec P hP hk cs md) (FIFOReinsertion.sim P hP hk cs md) (FIFOReinsertion.inv_init cs md adm picks)
  have e : FIFOReinsertion.view (FIFOReinsertion.init cs md adm picks) = { queue := [], hand := none, draws := picks } := by
    simp [FIFOReinsertion.view, FIFOReinsertion.init, FIFOMerge.ptrId, viewOf_nil]
  unfold cview tview at h
  rw [e] at h
  exact h

/-- C90: an eviction takes one object if at most `nExam` are cached, and `nExam − nKeep` otherwise. -/
theorem C90_evictCount_FIFOReinsertion_partial (ops : List Op) (out : List Bool) (s : FIFOReinsertion.State) (hops : ∀ op ∈ ops, Calls FIFOReinsertion_calls (SizeOk md) op)
    (hr : Reaches (FIFOReinsertion.algo P) (FIFOReinsertion.init cs md adm picks) ops out s) (hne : FIFOReinsertion_cached s ≠ []) (r : Req) :
    ∃ s' vs, (FIFOReinsertion.algo P).evict s r = .ok s' ∧ (FIFOReinsertion_cached s).Perm (vs ++ FIFOReinsertion_cached s') ∧
      vs.length = if (FIFOReinsertion_cached s).length ≤ P.nExam then 1 else P.nExam - P.nKeep := by
  have hi := (FIFOReinsertion.spec P hP hk cs md).contract.reach (FIFOReinsertion.inv_init cs md adm picks) hops hr
  obtain ⟨s', vs, h1, _, _, h4, _, _, _, h8⟩ := FIFOReinsertion.evict_spec hP hk hi (fun e => hne (by show s.base.cached = []; simp [Base.cached, e]))
  refine ⟨s', vs, h1, h4, ?_⟩
  rw [h8, FIFOReinsertion.len_q hi.q]
  simp [FIFOReinsertion_cached, Base.cached]

/-- C90: the hand is always at the oldest object (`none` stands for it too), so that the queue alone determines what is examined. -/
theorem C90_handAtOldest_FIFOReinsertion_partial (ops : List Op) (out : List Bool) (s : FIFOReinsertion.State) (hops : ∀ op ∈ ops, Calls FIFOReinsertion_calls (SizeOk md) op)
    (hr : Reaches (FIFOReinsertion.algo P) (FIFOReinsertion.init cs md adm picks) ops out s) :
    ∀ h, (FIFOReinsertion.view s).hand = some h → (FIFOReinsertion.view s).queue.getLast?.map (·.id) = some h := by
  have hi := (FIFOReinsertion.spec' P hP hk cs md).contract.reach ⟨FIFOReinsertion.inv_init cs md adm picks, .inl rfl⟩ hops hr
  intro h hh
  rcases hi.2 with e | ⟨l, i, e, e'⟩
  · rw [e] at hh; cases hh
  · rw [e'] at hh
    cases hh
    have := congrArg List.getLast? e
    rw [List.getLast?_map] at this
    simpa using this

end

/-- the demo run -/
theorem FIFOReinsertion_demo_reached : Reaches (FIFOReinsertion.algo FIFOMerge_F) FIFOReinsertion_start FIFOReinsertion_ops
      [false, false, false, false, false, true, false, true, false, false, false, false, false, true, true, true, false, true, true, true, false] FIFOReinsertion_demo ∧
    FIFOReinsertion.view FIFOReinsertion_demo = { queue := [⟨12, 2, 0, 17, -2⟩, ⟨11, 1, 0, 16, -2⟩, ⟨9, 1, 2, 15, -2⟩, ⟨10, 1, 0, 16, -2⟩], hand := some 10, draws := [] } :=
  ⟨reaches_after (by decide +kernel), by decide +kernel⟩

theorem FIFOReinsertion_demo_calls : ∀ op ∈ FIFOReinsertion_ops, Calls FIFOReinsertion_calls (SizeOk 0) op := by
  intro op hop
  simp only [FIFOReinsertion_ops, List.mem_cons, List.not_mem_nil, or_false] at hop
  rcases hop with rfl | rfl | rfl | rfl | rfl | rfl | rfl | rfl | rfl | rfl | rfl | rfl | rfl | rfl | rfl | rfl | rfl | rfl | rfl | rfl | rfl <;> simp [Calls, SizeOk, u32]

/-- the hypotheses of the theorems above; an admitted miss that needs evictions, a rejected one -/
example : FIFOMerge_F.policy ≠ .none ∧ FIFOMerge_F.nKeep < FIFOMerge_F.nExam ∧ 7 ∉ (FIFOReinsertion_cached FIFOReinsertion_demo).ids ∧
    admitsBase FIFOReinsertion_demo.base ⟨7, 4, -2⟩ = true ∧ admitsBase FIFOReinsertion_demo.base ⟨7, 7, -2⟩ = false := by
  refine ⟨?_, ?_, ?_, ?_, ?_⟩ <;> decide +kernel

/-! ## C90: a scan -/

/-- C90: after a scan the objects kept are the newest ones, the highest ranked first; the objects that were not examined follow in their old order; the objects examined and not kept are gone. -/
theorem C90_scanOrder_FIFOReinsertion (P : FIFOMerge.Params) (t : Reinsert.St) (now : Nat) (hid : (t.queue.map (·.id)).Nodup) (hlt : P.nExam < t.queue.length)
    (hhand : ∀ h, t.hand = some h → h ∈ t.queue.map (·.id)) :
    (Reinsert.evict (FIFOMerge_ranking P) P.nExam P.nKeep now t).queue.map (·.id) =
      ((Reinsert.ranked (FIFOMerge_ranking P) P.nExam now t).drop (P.nExam - P.nKeep)).reverse ++
        (t.queue.map (·.id)).filter (fun i => decide (i ∉ ((Reinsert.road t).take P.nExam).map (·.id))) :=
  FIFOReinsertion.scan_order P now hid hlt hhand

/-- C90: no examined object that is thrown out is ranked above one that is kept, if no object has size 0. -/
theorem C90_keepsBest_FIFOReinsertion (P : FIFOMerge.Params) (hP : P.policy ≠ .none) (t : Reinsert.St) (now : Nat) (hid : (t.queue.map (·.id)).Nodup) (hlt : P.nExam < t.queue.length)
    (hhand : ∀ h, t.hand = some h → h ∈ t.queue.map (·.id)) (hpos : ∀ x ∈ t.queue, 0 < x.size)
    (a b : FIFOMerge.Dbl × ObjId) (ha : a ∈ (Merge.ranks (FIFOMerge_ranking P) now ((Reinsert.road t).take P.nExam) t.draws).1)
    (hb : b ∈ (Merge.ranks (FIFOMerge_ranking P) now ((Reinsert.road t).take P.nExam) t.draws).1)
    (hout : a.2 ∉ (Reinsert.evict (FIFOMerge_ranking P) P.nExam P.nKeep now t).queue.map (·.id))
    (hkeep : b.2 ∈ (Reinsert.evict (FIFOMerge_ranking P) P.nExam P.nKeep now t).queue.map (·.id)) :
    FIFOMerge.Dbl.lt b.1 a.1 = false := by
  obtain ⟨hsub, hnd, _⟩ := FIFOMerge.window_ok (t := ⟨t.queue, t.hand, [], t.draws⟩) P.nExam hid hlt hhand
  rw [← FIFOReinsertion.road_window] at hsub hnd
  have hids := FIFOMerge.ranks_ids (FIFOMerge_ranking P) now ((Reinsert.road t).take P.nExam) t.draws
  have hnd' : ((Merge.ranks (FIFOMerge_ranking P) now ((Reinsert.road t).take P.nExam) t.draws).1.map Prod.snd).Nodup := (congrArg List.Nodup hids).mpr hnd
  have hperm : (Reinsert.ranked (FIFOMerge_ranking P) P.nExam now t).Perm (((Reinsert.road t).take P.nExam).map (·.id)) := by
    unfold Reinsert.ranked
    exact (FIFOMerge.order_perm P _).trans (List.Perm.of_eq hids)
  have haw : a.2 ∈ ((Reinsert.road t).take P.nExam).map (·.id) := hids ▸ List.mem_map_of_mem (f := Prod.snd) ha
  have hbw : b.2 ∈ ((Reinsert.road t).take P.nExam).map (·.id) := hids ▸ List.mem_map_of_mem (f := Prod.snd) hb
  have hso := FIFOReinsertion.scan_order P now hid hlt hhand
  have hso' : (Reinsert.evict (FIFOMerge_ranking P) P.nExam P.nKeep now t).queue.map (·.id) = _ := hso
  rw [hso', List.mem_append] at hout hkeep
  have hsplit := List.take_append_drop (P.nExam - P.nKeep) (Reinsert.ranked (FIFOMerge_ranking P) P.nExam now t)
  have hRn := hperm.nodup_iff.2 hnd
  rw [← hsplit, List.nodup_append] at hRn
  refine FIFOMerge.cut_sorted P ?_ hnd' (P.nExam - P.nKeep) ha hb ?_ ?_
  · intro e he
    obtain ⟨x, hx, d, rfl⟩ := FIFOMerge.ranks_mem he
    exact FIFOMerge.rank_ne_nan hP (hpos x (hsub x hx)) now d
  · have h1 := hperm.mem_iff.2 haw
    rw [← hsplit, List.mem_append] at h1
    rcases h1 with h1 | h1
    · exact h1
    · exact absurd (.inl (List.mem_reverse.2 h1)) hout
  · intro h1
    rcases hkeep with h2 | h2
    · exact hRn.2.2 b.2 h1 b.2 (List.mem_reverse.1 h2) rfl
    · have := (List.mem_filter.1 h2).2
      simp only [decide_eq_true_eq] at this
      exact this hbw

/-- the first scan of the demo: of 1, 2, 3 and 4, where 1 and 2 have been hit, 1 is kept -/
example : let s := after (FIFOReinsertion.algo FIFOMerge_F) FIFOReinsertion_start (FIFOReinsertion_ops.take 8)
    ((FIFOReinsertion.view s).queue.map (·.id)).Nodup ∧ 4 < (FIFOReinsertion.view s).queue.length ∧ (FIFOReinsertion.view s).hand = none ∧ (∀ x ∈ (FIFOReinsertion.view s).queue, 0 < x.size) ∧
    ((Reinsert.road (FIFOReinsertion.view s)).take 4).map (fun x => (x.id, x.hits)) = [(1, 1), (2, 1), (3, 0), (4, 0)] ∧
    Reinsert.ranked (FIFOMerge_ranking FIFOMerge_F) 4 7 (FIFOReinsertion.view s) = [4, 3, 2, 1] ∧
    (Reinsert.evict (FIFOMerge_ranking FIFOMerge_F) 4 1 7 (FIFOReinsertion.view s)).queue.map (·.id) = [1, 6, 5] := by
  refine ⟨?_, ?_, ?_, ?_, ?_, ?_, ?_⟩ <;> decide +kernel

/-! ## C90: few objects -/

/-- C90: if the objects are so large that never more than `nExam` of them fit (each takes at least `b` bytes with its metadata), FIFO_Reinsertion is FIFO, for every retain policy, without `remove`. -/
theorem C90_isFIFO_FIFOReinsertion_partial (P : FIFOMerge.Params) (cs md b : Nat) (hb : cs < (P.nExam + 1) * b) (adm : Adm) (picks : List Nat) :
    Follows (FIFOReinsertion.algo P) (FIFOReinsertion.init cs md adm picks) (Calls FIFOReinsertion_calls (fun r => SizeOk md r ∧ b ≤ r.size % u32 + md)) fifo cs md ⟨[], adm⟩
      (fun s => ⟨(FIFOReinsertion.view s).queue.map Merge.Seen.entry, s.base.adm⟩) :=
  Sim.follows (FIFOReinsertion.small_spec P cs md b hb) (FIFOReinsertion.small_sim P cs md b hb) (FIFOReinsertion.small_init P cs md b adm picks)

/-- four objects of at least 2 bytes in 9 bytes -/
example : 9 < (FIFOMerge_F.nExam + 1) * 2 ∧
    answers (FIFOReinsertion.algo FIFOMerge_F) (FIFOReinsertion.init 9 0 .none demoPicks) [.get ⟨1, 2, -2⟩, .get ⟨2, 2, -2⟩, .get ⟨3, 3, -2⟩, .get ⟨1, 2, -2⟩, .get ⟨4, 3, -2⟩, .get ⟨1, 2, -2⟩, .get ⟨3, 3, -2⟩] =
      some [false, false, false, true, false, false, true] := by
  refine ⟨?_, ?_⟩ <;> decide +kernel

/-! ## What fails -/

/-- C06: one miss can evict more objects than the requested one needs.  Here a request for an object of size 1 evicts three of six objects of size 1. -/
theorem C06_evictOnDemand_fails_FIFOReinsertion :
    ¬ EvictOnDemand (FIFOReinsertion.algo FIFOMerge_F) FIFOReinsertion_cached FIFOReinsertion_start (Calls FIFOReinsertion_calls (SizeOk 0)) 6 0 := by
  intro h
  have h1 : Reaches (FIFOReinsertion.algo FIFOMerge_F) FIFOReinsertion_start (FIFOReinsertion_ops.take 8) [false, false, false, false, false, true, false, true]
      (after (FIFOReinsertion.algo FIFOMerge_F) FIFOReinsertion_start (FIFOReinsertion_ops.take 8)) := reaches_after (by decide +kernel)
  obtain ⟨vs, kept, h2, h3, h4⟩ := (h _ _ _ (fun op hop => FIFOReinsertion_demo_calls op (List.mem_of_mem_take hop)) h1 ⟨7, 1, -2⟩ false _ (by simp [Calls, SizeOk, u32]) (get_after (by decide +kernel))).2 rfl
  have e1 : FIFOReinsertion_cached (after (FIFOReinsertion.algo FIFOMerge_F) FIFOReinsertion_start (FIFOReinsertion_ops.take 8)) = [(6, 1), (5, 1), (4, 1), (3, 1), (2, 1), (1, 1)] := by decide +kernel
  have e2 : (FIFOReinsertion_cached (after (FIFOReinsertion.algo FIFOMerge_F) (after (FIFOReinsertion.algo FIFOMerge_F) FIFOReinsertion_start (FIFOReinsertion_ops.take 8)) [.get ⟨7, 1, -2⟩])).length = 4 := by
    decide +kernel
  rw [e1] at h2
  have hl := h2.length_eq
  simp only [List.length_append, List.length_cons, List.length_nil] at hl
  have hk : kept.length ≤ 4 := by
    rcases h3 with h3 | h3
    · have := h3.length_eq; omega
    · have := h3.length_eq; simp only [List.length_cons] at this; omega
  obtain ⟨ws, v, rfl⟩ : ∃ ws v, vs = ws ++ [v] := by
    rcases List.eq_nil_or_concat vs with e | ⟨l, t, e⟩
    · rw [e] at hl; simp at hl; omega
    · exact ⟨l, t, by rw [e, List.concat_eq_append]⟩
  have h5 : bytes 0 (v :: kept) + 1 + 0 > 6 := h4 ws v rfl
  have hb : bytes 0 (v :: kept) ≤ 5 := by
    have h6 : ∀ x ∈ v :: kept, x.2 = 1 := by
      intro x hx
      have : x ∈ [(6, 1), (5, 1), (4, 1), (3, 1), (2, 1), (1, 1)] := h2.mem_iff.2 (by
        rcases List.mem_cons.1 hx with rfl | hx
        · simp
        · simp [hx])
      simp only [List.mem_cons, List.not_mem_nil, or_false] at this
      rcases this with rfl | rfl | rfl | rfl | rfl | rfl <;> rfl
    have h7 : ∀ l : Contents, (∀ x ∈ l, x.2 = 1) → bytes 0 l = l.length := by
      intro l hl
      induction l with
      | nil => rfl
      | cons x l ih =>
        have h8 := hl x (by simp)
        have h9 := ih (fun y hy => hl y (List.mem_cons_of_mem _ hy))
        simp only [bytes, List.map_cons, List.sum_cons, List.length_cons] at h9 ⊢
        omega
    rw [h7 _ h6]
    simp only [List.length_cons]; omega
  omega

/-- C09: `remove` does not look at the place where the next eviction starts.  Here the scan stopped at object 5; it is removed, and the next eviction reads it. -/
theorem C09_safe_fails_FIFOReinsertion_removeNext : (∀ op ∈ FIFOReinsertion_ops.take 9 ++ [.remove 5, .evict ⟨0, 0, -2⟩], Calls {} (SizeOk 0) op) ∧
    faultOf (FIFOReinsertion.algo FIFOMerge_F) FIFOReinsertion_start (FIFOReinsertion_ops.take 9 ++ [.remove 5, .evict ⟨0, 0, -2⟩]) = some .useAfterFree :=
  ⟨by simp [FIFOReinsertion_ops, Calls, SizeOk, u32], by decide +kernel⟩

/-- C09: with the retain policy `none` the first scan aborts. -/
theorem C09_safe_fails_FIFOReinsertion_none : (∀ op ∈ FIFOReinsertion_ops.take 9, Calls {} (SizeOk 0) op) ∧
    faultOf (FIFOReinsertion.algo (FIFOMerge_P .none)) FIFOReinsertion_start (FIFOReinsertion_ops.take 9) = some .abort :=
  ⟨by simp [FIFOReinsertion_ops, Calls, SizeOk, u32], by decide +kernel⟩

/-- examine four objects, keep all of them -/
def FIFOReinsertion_all : FIFOMerge.Params := { FIFOMerge_F with nKeep := 4, le := by decide }

/-- C09: the parameters may ask for as many objects kept as examined.  Then a scan evicts nothing, and the seventh object of size 1 never gets its place in a cache of 6 bytes: `get` does not return. -/
theorem C09_safe_fails_FIFOReinsertion_keepAll : (∀ op ∈ FIFOReinsertion_ops.take 9, Calls {} (SizeOk 0) op) ∧
    faultOf (FIFOReinsertion.algo FIFOReinsertion_all) FIFOReinsertion_start (FIFOReinsertion_ops.take 9) = some .diverge :=
  ⟨by simp [FIFOReinsertion_ops, Calls, SizeOk, u32], by decide +kernel⟩

/-- C10: `to_evict` of FIFO_Reinsertion aborts. -/
theorem C10_toEvict_fails_FIFOReinsertion (s : FIFOReinsertion.State) : FIFOReinsertion.toEvict s = .error .abort := rfl

end Verif.Props
