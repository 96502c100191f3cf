import Verif.Proof.LPTwoQFollows
import Verif.Props.TwoQ
/-!
# Properties of LP_TwoQ (libCacheSim/cache/eviction/fifo/LP_TwoQ.c)

The statements are those of `Verif/Spec/Cache.lean`.  They hold for every cache size `cs`, every size `as ≤ cs / 2` of Ain (the default is a quarter),
every size `gs` of Aout and every sequence of client calls without `evict`, where not stated otherwise.
The theorems named `_fails` show what goes wrong outside these bounds.  LP_TwoQ never asks the admission policy (LP_TwoQ.c:327-331), and its `to_evict` is
an assertion failure (LP_TwoQ.c:251-254), so C10 does not apply to it.
-/

namespace Verif.Props
open Verif Verif.Spec
set_option linter.unusedVariables false
set_option maxRecDepth 20000

/-- what LPTwoQ has cached: the objects of Ain and Am -/
abbrev LPTwoQ_cached (s : LPTwoQ.State) : Contents := LPTwoQ.cached s

/-- the ids in Ain (youngest first), in Aout, and in Am (oldest first) -/
def LPTwoQ_ain (s : LPTwoQ.State) : List ObjId := s.ain.objs.map (·.id)
def LPTwoQ_aout (s : LPTwoQ.State) : List ObjId := s.aout.base.cached.ids
def LPTwoQ_am (s : LPTwoQ.State) : List ObjId := (Clock.view s.am).map Item.id

/-- a demo run: hits in both queues, ghost hits, evictions from both queues, removals, an insertion, a too large object -/
def LPTwoQ_ops : List Op := [.get ⟨1, 3, -2⟩, .get ⟨2, 3, -2⟩, .get ⟨1, 3, -2⟩, .get ⟨3, 3, -2⟩, .get ⟨4, 2, -2⟩, .get ⟨1, 3, -2⟩, .get ⟨7, 30, -2⟩,
  .find ⟨1, 3, -2⟩ true, .find ⟨4, 2, -2⟩ false, .remove 4, .remove 9, .get ⟨5, 3, -2⟩, .get ⟨2, 3, -2⟩, .get ⟨6, 3, -2⟩, .get ⟨3, 3, -2⟩,
  .insert ⟨8, 1, -2⟩, .get ⟨1, 3, -2⟩, .get ⟨9, 2, -2⟩]

def LPTwoQ_demo : LPTwoQ.State :=
  match LPTwoQ.algo.run (LPTwoQ.init 10 3 9) LPTwoQ_ops with
  | .ok p => p.2
  | .error _ => LPTwoQ.init 10 3 9

theorem LPTwoQ_demo_reached : Reaches LPTwoQ.algo (LPTwoQ.init 10 3 9) LPTwoQ_ops
    [false, false, true, false, false, false, false, true, true, true, false, false, false, false, false, true, true, false]
    LPTwoQ_demo ∧ LPTwoQ_ain LPTwoQ_demo = [9, 8] ∧ LPTwoQ_aout LPTwoQ_demo = [6, 5] ∧ LPTwoQ_am LPTwoQ_demo = [1, 3] :=
  ⟨rfl, by decide, by decide, by decide⟩

/-- the end state of a run -/
def LPTwoQ_after (s0 : LPTwoQ.State) (ops : List Op) : LPTwoQ.State :=
  match LPTwoQ.algo.run s0 ops with
  | .ok p => p.2
  | .error _ => s0

theorem C01_capacity_LPTwoQ_partial (cs as gs : Nat) (h : 2 * as ≤ cs) :
    Capacity LPTwoQ.algo (LPTwoQ.init cs as gs) (Calls noEvict (fun _ => True)) cs :=
  (LPTwoQ.medium gs noEvict rfl).capacity (LPTwoQ.inv_init gs _ h)

example : LPTwoQ.algo.occ LPTwoQ_demo = 9 := by decide

theorem C02_accounting_LPTwoQ_partial (cs as gs : Nat) (h : 2 * as ≤ cs) :
    Accounting LPTwoQ.algo LPTwoQ_cached (LPTwoQ.init cs as gs) (Calls noEvict (fun _ => True)) 0 :=
  (LPTwoQ.medium gs noEvict rfl).accounting (LPTwoQ.inv_init gs _ h)

example : LPTwoQ.algo.nObj LPTwoQ_demo = 4 := by decide

theorem C03_hitIffCached_LPTwoQ_partial (cs as gs : Nat) (h : 2 * as ≤ cs) :
    HitIffCached LPTwoQ.algo LPTwoQ_cached (LPTwoQ.init cs as gs) (Calls noEvict (fun _ => True)) :=
  (LPTwoQ.medium gs noEvict rfl).hitIffCached (LPTwoQ.inv_init gs _ h)

/-- Without client inserts. -/
theorem C04_noPhantom_LPTwoQ_partial (cs as gs : Nat) (h : 2 * as ≤ cs) :
    NoPhantom LPTwoQ.algo LPTwoQ_cached (LPTwoQ.init cs as gs) (Calls { ev := false, ins := false } (fun _ => True)) := by
  refine (LPTwoQ.medium gs { ev := false, ins := false } rfl).noPhantom (LPTwoQ.inv_init gs _ h) rfl ?_
  intro _ s s' b id hi he
  obtain ⟨s'', k1, _, _, k4, _⟩ := LPTwoQ.remove_spec hi id
  rw [show LPTwoQ.algo.remove s id = LPTwoQ.remove s id from rfl, k1] at he
  injection he with he
  injection he with _ he
  rw [← he]
  intro hx
  obtain ⟨y, hy, hye⟩ := List.mem_map.1 hx
  have := List.of_mem_filter ((k4 rfl).subset hy)
  simp [hye] at this

theorem C04_addsOnlyRequested_LPTwoQ_partial (cs as gs : Nat) (h : 2 * as ≤ cs) :
    AddsOnlyRequested LPTwoQ.algo LPTwoQ_cached (LPTwoQ.init cs as gs) (Calls noEvict (fun _ => True)) :=
  (LPTwoQ.medium gs noEvict rfl).addsOnlyRequested (LPTwoQ.inv_init gs _ h)

/-- Object 1 falls out of Ain, the client inserts it again (`insert` does not look at Aout) while another ghost was just found: it goes to Am although it is in Aout. -/
def LPTwoQ_stale : List Op := [.get ⟨1, 2, -2⟩, .get ⟨2, 2, -2⟩, .get ⟨3, 2, -2⟩, .get ⟨4, 2, -2⟩, .get ⟨5, 2, -2⟩, .get ⟨6, 2, -2⟩,
  .find ⟨2, 2, -2⟩ true, .remove 6, .insert ⟨1, 2, -2⟩]

theorem LPTwoQ_stale_calls : ∀ op ∈ LPTwoQ_stale, Calls noEvict (fun _ => True) op := by
  intro op hop
  simp only [LPTwoQ_stale, List.mem_cons, List.not_mem_nil, or_false] at hop
  rcases hop with rfl | rfl | rfl | rfl | rfl | rfl | rfl | rfl | rfl <;> simp [Calls]

theorem LPTwoQ_stale_reached : Reaches LPTwoQ.algo (LPTwoQ.init 8 4 9) LPTwoQ_stale [false, false, false, false, false, false, false, true, true]
    (LPTwoQ_after (LPTwoQ.init 8 4 9) LPTwoQ_stale) ∧ LPTwoQ_am (LPTwoQ_after (LPTwoQ.init 8 4 9) LPTwoQ_stale) = [1] ∧
    1 ∈ LPTwoQ_aout (LPTwoQ_after (LPTwoQ.init 8 4 9) LPTwoQ_stale) := ⟨rfl, by decide, by decide⟩

/-- C07 fails for the effect when the client inserts: object 1 is cached, `remove 1` answers `true`, object 1 is still cached. -/
theorem C07_removeEffect_fails_LPTwoQ : ∃ ops out s s', (∀ op ∈ ops, Calls noEvict (fun _ => True) op) ∧
    Reaches LPTwoQ.algo (LPTwoQ.init 8 4 9) ops out s ∧ (1, 2) ∈ LPTwoQ_cached s ∧ LPTwoQ.algo.remove s 1 = .ok (true, s') ∧ (1, 2) ∈ LPTwoQ_cached s' :=
  ⟨LPTwoQ_stale, _, LPTwoQ_after (LPTwoQ.init 8 4 9) LPTwoQ_stale, LPTwoQ_after (LPTwoQ.init 8 4 9) (LPTwoQ_stale ++ [.remove 1]),
    LPTwoQ_stale_calls, LPTwoQ_stale_reached.1, by decide, rfl, by decide⟩

/-- C05: every missed object that fits into Ain is cached afterwards. -/
theorem C05_admittedMissCached_LPTwoQ_partial (cs as gs : Nat) (h : 2 * as ≤ cs) :
    AdmittedMissCached LPTwoQ.algo LPTwoQ_cached (fun _ r => decide (r.size ≤ as)) (LPTwoQ.init cs as gs) (Calls noEvict (fun _ => True)) := by
  intro ops out s ho hr r _ hn ha
  have hi := (LPTwoQ.medium (cs := cs) (as := as) gs noEvict rfl).reach (LPTwoQ.inv_init gs _ h) ho hr
  have hle : r.size ≤ as := of_decide_eq_true ha
  obtain ⟨s', _, _, _, k1, _, k3, _⟩ := (LPTwoQ.get_miss rfl hi hn).2 hle
  exact ⟨s', k1, k3.symm.subset List.mem_cons_self⟩

example : 4 ∉ (LPTwoQ_cached LPTwoQ_demo).ids ∧ decide ((⟨4, 3, -2⟩ : Req).size ≤ 3) = true := by decide

/-- What is proved of C06.  A hit evicts nothing.  A miss evicts a list of victims, the last of which the cache had to make room for; then, only when the
object is in Aout, further victims `amVictims` from Am, the last of which was in the way of Am's own share `cs - as`. -/
theorem C06_evictOnDemand_LPTwoQ_partial (cs as gs : Nat) (h : 2 * as ≤ cs) (ops : List Op) (out : List Bool) (s : LPTwoQ.State)
    (ho : ∀ op ∈ ops, Calls noEvict (fun _ => True) op) (hr : Reaches LPTwoQ.algo (LPTwoQ.init cs as gs) ops out s) (r : Req) (b : Bool) (s' : LPTwoQ.State)
    (hg : LPTwoQ.algo.get s r = .ok (b, s')) :
    (b = true → (LPTwoQ_cached s').Perm (LPTwoQ_cached s)) ∧
    (b = false → ∃ victims amVictims kept, (LPTwoQ_cached s).Perm (victims ++ amVictims ++ kept) ∧
      ((LPTwoQ_cached s').Perm kept ∨ (LPTwoQ_cached s').Perm ((r.id, r.size % u32) :: kept)) ∧
      (∀ vs v, victims = vs ++ [v] → bytes 0 (v :: (amVictims ++ kept)) + r.size > cs) ∧
      (amVictims ≠ [] → r.id ∈ LPTwoQ_aout s) ∧ (∀ v ∈ amVictims, v.1 ∈ LPTwoQ_am s) ∧
      (∀ vs v, amVictims = vs ++ [v] → ∃ am', s'.am.base.cached.Perm ((r.id, r.size % u32) :: am') ∧ bytes 0 (v :: am') + r.size > cs - as)) := by
  have C := LPTwoQ.medium (cs := cs) (as := as) gs noEvict rfl
  have hi := C.reach (LPTwoQ.inv_init gs _ h) ho hr
  by_cases hin : r.id ∈ (LPTwoQ_cached s).ids
  · obtain ⟨s1, hf, _⟩ := C.findHit r (LPTwoQ.bump_inv hi) hin (Fresh.bump trivial hi)
    have hp := C.hitPerm r (LPTwoQ.bump_inv hi) hf
    rw [get_hit hf] at hg
    cases hg
    exact ⟨fun _ => hp, by simp⟩
  · by_cases hsz : r.size ≤ as
    · obtain ⟨s'', vs, kept, ws, k1, k2, k3, k4, k5, k6, k7, _⟩ := (LPTwoQ.get_miss rfl hi hin).2 hsz
      rw [k1] at hg; cases hg
      refine ⟨by simp, fun _ => ⟨vs, ws, kept, k2, Or.inr k3, fun us v e => by rw [bytes_eq_charge]; exact k4 us v e, k7, ?_, ?_⟩⟩
      · intro v hv
        exact (hi.am.view_ids _).2 (List.mem_map_of_mem (k6 v hv))
      · intro us v e
        obtain ⟨am', _, _, e1, e2⟩ := k5 us v e
        exact ⟨am', e1, by rw [bytes_eq_charge]; exact e2⟩
    · obtain ⟨s'', k1, k2, k3⟩ := (LPTwoQ.get_miss rfl hi hin).1 hsz
      rw [k1] at hg; cases hg
      refine ⟨by simp, fun _ => ⟨[], [], LPTwoQ_cached s, by simp, Or.inl ?_, by simp, by simp, by simp, by simp⟩⟩
      rw [show LPTwoQ_cached s' = LPTwoQ_cached s by simp only [LPTwoQ_cached, LPTwoQ.cached, k2, k3]]

/-- C06 fails in general: 2 bytes are requested and 2 of 8 are free, yet object 1 is evicted from Am. -/
theorem C06_evictOnDemand_fails_LPTwoQ :
    ¬ EvictOnDemand LPTwoQ.algo LPTwoQ_cached (LPTwoQ.init 8 4 9) (Calls noEvict (fun _ => True)) 8 0 := by
  intro h
  have hc := h [.get ⟨1, 2, -2⟩, .get ⟨2, 2, -2⟩, .get ⟨3, 2, -2⟩, .get ⟨4, 2, -2⟩, .get ⟨5, 2, -2⟩, .get ⟨6, 2, -2⟩, .get ⟨1, 2, -2⟩, .get ⟨2, 2, -2⟩, .remove 6]
    [false, false, false, false, false, false, false, false, true]
    (LPTwoQ_after (LPTwoQ.init 8 4 9) [.get ⟨1, 2, -2⟩, .get ⟨2, 2, -2⟩, .get ⟨3, 2, -2⟩, .get ⟨4, 2, -2⟩, .get ⟨5, 2, -2⟩, .get ⟨6, 2, -2⟩, .get ⟨1, 2, -2⟩, .get ⟨2, 2, -2⟩, .remove 6])
    (by simp [Calls]) rfl ⟨3, 2, -2⟩ false
    (LPTwoQ_after (LPTwoQ.init 8 4 9) [.get ⟨1, 2, -2⟩, .get ⟨2, 2, -2⟩, .get ⟨3, 2, -2⟩, .get ⟨4, 2, -2⟩, .get ⟨5, 2, -2⟩, .get ⟨6, 2, -2⟩, .get ⟨1, 2, -2⟩, .get ⟨2, 2, -2⟩, .remove 6, .get ⟨3, 2, -2⟩])
    trivial rfl
  obtain ⟨vs, kept, h1, h2, h3⟩ := hc.2 rfl
  have e1 := charge_perm (md := 0) h1
  have l1 := h1.length_eq
  simp only [← bytes_eq_charge] at e1
  rw [show bytes 0 (LPTwoQ_cached _) = 6 from by decide] at e1
  rw [show (LPTwoQ_cached _).length = 3 from by decide, List.length_append] at l1
  rcases List.eq_nil_or_concat vs with rfl | ⟨us, v, rfl⟩
  · rcases h2 with h2 | h2
    · have h4 := (h1.trans (h2.symm)).subset (show ((1, 2) : ObjId × Nat) ∈ _ from by decide)
      revert h4; decide
    · have h4 := h2.symm.subset (List.mem_cons_of_mem _ (h1.subset (show ((1, 2) : ObjId × Nat) ∈ _ from by decide)))
      revert h4; decide
  · have h4 := h3 us v (by simp)
    rw [List.concat_eq_append, List.append_assoc, bytes_eq_charge, charge_append] at e1
    rw [bytes_eq_charge] at h4
    simp only [List.singleton_append] at e1
    have : (⟨3, 2, -2⟩ : Req).size = 2 := rfl
    omega

/-- What is proved of C07: without client inserts `remove` removes exactly the object.  Its answer is also `true` for an object that is only in Aout. -/
theorem C07_removeExact_LPTwoQ_partial (cs as gs : Nat) (h : 2 * as ≤ cs) (ops : List Op) (out : List Bool) (s : LPTwoQ.State)
    (ho : ∀ op ∈ ops, Calls { ev := false, ins := false } (fun _ => True) op) (hr : Reaches LPTwoQ.algo (LPTwoQ.init cs as gs) ops out s) (id : ObjId) :
    ∃ s', LPTwoQ.algo.remove s id = .ok (decide (id ∈ (LPTwoQ_cached s).ids ∨ id ∈ LPTwoQ_aout s), s') ∧
      (LPTwoQ_cached s').Perm ((LPTwoQ_cached s).filter (fun x => x.1 ≠ id)) ∧ id ∉ LPTwoQ_aout s' := by
  have hi := (LPTwoQ.medium (cs := cs) (as := as) gs { ev := false, ins := false } rfl).reach (LPTwoQ.inv_init gs _ h) ho hr
  obtain ⟨s', k1, _, _, k3, _, _, k6⟩ := LPTwoQ.remove_spec hi id
  exact ⟨s', k1, k3 rfl, k6 rfl⟩

/-- C07 fails for the answer: removing an object that is only in Aout answers `true`. -/
theorem C07_removeExact_fails_LPTwoQ :
    ¬ RemoveExact LPTwoQ.algo LPTwoQ_cached (LPTwoQ.init 8 4 9) (Calls { ev := false, ins := false } (fun _ => True)) := by
  intro h
  obtain ⟨s', h1, _⟩ := h [.get ⟨1, 4, -2⟩, .get ⟨2, 4, -2⟩, .get ⟨3, 4, -2⟩] [false, false, false]
    (LPTwoQ_after (LPTwoQ.init 8 4 9) [.get ⟨1, 4, -2⟩, .get ⟨2, 4, -2⟩, .get ⟨3, 4, -2⟩]) (by simp [Calls]) rfl 1
  have h2 : (LPTwoQ.algo.remove (LPTwoQ_after (LPTwoQ.init 8 4 9) [.get ⟨1, 4, -2⟩, .get ⟨2, 4, -2⟩, .get ⟨3, 4, -2⟩]) 1).map (fun p => p.1) = .ok true := rfl
  rw [h1] at h2
  revert h2
  exact fun h2 => absurd h2 (by simp only [Except.map]; decide)

/-- C08: a request that is not admitted leaves Ain and Am unchanged (order and counters included).  It does drop the object's entry in Aout. -/
theorem C08_rejectQuiet_LPTwoQ_partial (cs as gs : Nat) (h : 2 * as ≤ cs) :
    RejectQuiet LPTwoQ.algo LPTwoQ_cached (fun _ r => decide (r.size ≤ as)) (fun s => (s.ain, s.am)) (LPTwoQ.init cs as gs)
      (Calls noEvict (fun _ => True)) := by
  intro ops out s ho hr r _ hn ha
  have hi := (LPTwoQ.medium (cs := cs) (as := as) gs noEvict rfl).reach (LPTwoQ.inv_init gs _ h) ho hr
  have hle : ¬ r.size ≤ as := of_decide_eq_false ha
  obtain ⟨s', k1, k2, k3⟩ := (LPTwoQ.get_miss rfl hi hn).1 hle
  exact ⟨s', k1, by simp only [k2, k3]⟩

/-- a rejected request -/
example : 7 ∉ (LPTwoQ_cached LPTwoQ_demo).ids ∧ decide ((⟨7, 5, -2⟩ : Req).size ≤ 3) = false := by decide

/-- Without client `evict` calls. -/
theorem C09_safe_LPTwoQ_partial (cs as gs : Nat) (h : 2 * as ≤ cs) :
    Safe LPTwoQ.algo (LPTwoQ.init cs as gs) (Calls noEvict (fun _ => True)) :=
  (LPTwoQ.medium gs noEvict rfl).safe (LPTwoQ.inv_init gs _ h)

/-- C09 fails with client `evict` calls: one `get`, then `evict`; Ain is within its share, Am is empty, and LPTwoQ evicts from Am. -/
theorem C09_evict_fails_LPTwoQ : LPTwoQ.algo.run (LPTwoQ.init 10 3 9) [.get ⟨1, 3, -2⟩, .evict ⟨0, 0, -2⟩] = .error .nullDeref := rfl

/-- C09 fails when Ain gets more than half of the cache: two `get` calls suffice to crash. -/
theorem C09_largeAin_fails_LPTwoQ : LPTwoQ.algo.run (LPTwoQ.init 10 8 9) [.get ⟨1, 8, -2⟩, .get ⟨2, 8, -2⟩] = .error .nullDeref := rfl

/-! ## C89: the three queues -/

/-- C89, first part.  Without client inserts an object is at most once in Ain, Aout and Am taken together. -/
theorem C89_oneQueue_LPTwoQ_partial (cs as gs : Nat) (h : 2 * as ≤ cs) (ops : List Op) (out : List Bool) (s : LPTwoQ.State)
    (ho : ∀ op ∈ ops, Calls { ev := false, ins := false } (fun _ => True) op) (hr : Reaches LPTwoQ.algo (LPTwoQ.init cs as gs) ops out s) :
    (LPTwoQ_ain s ++ LPTwoQ_aout s ++ LPTwoQ_am s).Nodup := by
  have hi := (LPTwoQ.medium (cs := cs) (as := as) gs { ev := false, ins := false } rfl).reach (LPTwoQ.inv_init gs _ h) ho hr
  have hq : ∀ i, i ∈ LPTwoQ_am s ↔ i ∈ s.am.base.cached.ids := by
    exact fun i => hi.am.view_ids i
  rw [List.nodup_append, List.nodup_append]
  refine ⟨⟨hi.ain.nodup, hi.aout.nodup, fun a ha b hb e => ?_⟩, ?_, fun a ha b hb e => ?_⟩
  · subst e
    exact hi.sep rfl a hb ((LPTwoQ.mem_cached s a).2 (Or.inl ha))
  · exact hi.am.view_perm.nodup_iff.2 hi.am.nodup
  · subst e
    rcases List.mem_append.1 ha with ha | ha
    · exact hi.dis a ha ((hq a).1 hb)
    · exact hi.sep rfl a ha ((LPTwoQ.mem_cached s a).2 (Or.inr ((hq a).1 hb)))

example : LPTwoQ_ain LPTwoQ_demo ++ LPTwoQ_aout LPTwoQ_demo ++ LPTwoQ_am LPTwoQ_demo = [9, 8, 6, 5, 1, 3] := by decide

/-- With client inserts an object is still at most once in Ain and Am, -/
theorem C89_oneCachedQueue_LPTwoQ (cs as gs : Nat) (h : 2 * as ≤ cs) (ops : List Op) (out : List Bool) (s : LPTwoQ.State)
    (ho : ∀ op ∈ ops, Calls noEvict (fun _ => True) op) (hr : Reaches LPTwoQ.algo (LPTwoQ.init cs as gs) ops out s) :
    (LPTwoQ_ain s ++ LPTwoQ_am s).Nodup := by
  have hi := (LPTwoQ.medium (cs := cs) (as := as) gs noEvict rfl).reach (LPTwoQ.inv_init gs _ h) ho hr
  rw [List.nodup_append]
  refine ⟨hi.ain.nodup, ?_, fun a ha b hb e => ?_⟩
  · exact hi.am.view_perm.nodup_iff.2 hi.am.nodup
  · subst e
    refine hi.dis a ha ?_
    exact (hi.am.view_ids a).1 hb

/-- but it can be in Am and in Aout. -/
theorem C89_oneQueue_fails_LPTwoQ : ∃ ops out s, (∀ op ∈ ops, Calls noEvict (fun _ => True) op) ∧
    Reaches LPTwoQ.algo (LPTwoQ.init 8 4 9) ops out s ∧ 1 ∈ LPTwoQ_am s ∧ 1 ∈ LPTwoQ_aout s :=
  ⟨_, _, _, LPTwoQ_stale_calls, LPTwoQ_stale_reached.1, by decide, by decide⟩

/-- C89, second part: without client inserts an object enters Am only by a `get` of the object while it is in Aout. -/
theorem C89_entersAm_LPTwoQ (cs as gs : Nat) (h : 2 * as ≤ cs) (ops : List Op) (out : List Bool) (s : LPTwoQ.State)
    (ho : ∀ op ∈ ops, Calls { ev := false, ins := false } (fun _ => True) op) (hr : Reaches LPTwoQ.algo (LPTwoQ.init cs as gs) ops out s)
    (op : Op) (hop : Calls { ev := false, ins := false } (fun _ => True) op) (b : Bool) (s' : LPTwoQ.State) (hs : LPTwoQ.algo.step s op = .ok (b, s'))
    (i : ObjId) (hnew : i ∈ s'.am.base.cached.ids) (hold : i ∉ s.am.base.cached.ids) : i ∈ LPTwoQ_aout s ∧ ∃ r, op = .get r ∧ r.id = i := by
  have hi := (LPTwoQ.medium (cs := cs) (as := as) gs { ev := false, ins := false } rfl).reach (LPTwoQ.inv_init gs _ h) ho hr
  exact (LPTwoQ.step_am rfl rfl hi hop hs i hnew).resolve_left hold

/-- and a missed object that fits goes to Am if it is in Aout, to the young end of Ain otherwise. -/
theorem C89_whereMissesGo_LPTwoQ (cs as gs : Nat) (h : 2 * as ≤ cs) (ops : List Op) (out : List Bool) (s : LPTwoQ.State)
    (ho : ∀ op ∈ ops, Calls noEvict (fun _ => True) op) (hr : Reaches LPTwoQ.algo (LPTwoQ.init cs as gs) ops out s)
    (r : Req) (hn : r.id ∉ (LPTwoQ_cached s).ids) (hsz : r.size ≤ as) :
    ∃ s', LPTwoQ.algo.get s r = .ok (false, s') ∧ (r.id ∈ LPTwoQ_aout s → r.id ∈ LPTwoQ_am s') ∧ (r.id ∉ LPTwoQ_aout s → ∃ l, LPTwoQ_ain s' = r.id :: l) := by
  have C := LPTwoQ.medium (cs := cs) (as := as) gs noEvict rfl
  have hi := C.reach (LPTwoQ.inv_init gs _ h) ho hr
  obtain ⟨s', _, _, _, k1, _, _, _, _, _, _, k8, k9, _⟩ := (LPTwoQ.get_miss rfl hi hn).2 hsz
  obtain ⟨s'', e1, hi', _⟩ := C.toContract.get r trivial hi
  rw [k1] at e1
  injection e1 with e1
  injection e1 with _ e1
  subst e1
  refine ⟨s', k1, fun hx => ?_, fun hx => ?_⟩
  · exact (hi'.am.view_ids _).2 (k8 hx)
  · obtain ⟨l, e⟩ := k9 hx
    exact ⟨l.map (·.id), by rw [LPTwoQ_ain, e]; rfl⟩

/-- both occur in the demo state -/
example : (6 ∉ (LPTwoQ_cached LPTwoQ_demo).ids ∧ 6 ∈ LPTwoQ_aout LPTwoQ_demo) ∧ (4 ∉ (LPTwoQ_cached LPTwoQ_demo).ids ∧ 4 ∉ LPTwoQ_aout LPTwoQ_demo) := by decide

/-- A hit in Ain changes nothing in the queues; a hit in Am sets the object's reference bit and moves nothing. -/
theorem C89_hit_LPTwoQ (cs as gs : Nat) (h : 2 * as ≤ cs) (ops : List Op) (out : List Bool) (s : LPTwoQ.State)
    (ho : ∀ op ∈ ops, Calls noEvict (fun _ => True) op) (hr : Reaches LPTwoQ.algo (LPTwoQ.init cs as gs) ops out s) (r : Req) :
    (r.id ∈ LPTwoQ_ain s → ∃ s', LPTwoQ.algo.get s r = .ok (true, s') ∧ s'.ain = s.ain ∧ s'.am = s.am ∧ s'.aout = s.aout) ∧
    (r.id ∈ LPTwoQ_am s → ∃ s', LPTwoQ.algo.get s r = .ok (true, s') ∧ s'.ain = s.ain ∧
      Clock.view s'.am = (Clock.view s.am).map (fun x => if x.id = r.id ∧ x.cnt < 1 then { x with cnt := x.cnt + 1 } else x)) := by
  have hi := (LPTwoQ.medium (cs := cs) (as := as) gs noEvict rfl).reach (LPTwoQ.inv_init gs _ h) ho hr
  refine ⟨fun hin => ?_, fun hin => ?_⟩
  · have hf := LPTwoQ.findAin (LPTwoQ.bump_inv hi) hin
    exact ⟨_, get_hit hf, rfl, rfl, rfl⟩
  · have hin' : r.id ∈ s.am.base.cached.ids := (hi.am.view_ids _).1 hin
    have hna : r.id ∉ s.ain.objs.map (·.id) := fun hx => hi.dis _ hx hin'
    obtain ⟨g, m, k1, _, _, _, k5, _⟩ := LPTwoQ.findAm (LPTwoQ.bump_inv hi) hna
    rw [show decide (r.id ∈ (LPTwoQ.algo.bump s).am.base.cached.ids) = true from decide_eq_true hin'] at k1
    exact ⟨_, get_hit k1, rfl, k5 hin'⟩

/-- C89: whom `evict` takes.  While Ain holds more than its share: the oldest object of Ain, whose id then is in Aout if the object fits there.  Otherwise
the object of Am that CLOCK takes, if there is one; if there is none, the call crashes. -/
theorem C89_victim_LPTwoQ (cs as gs : Nat) (h : 2 * as ≤ cs) (ops : List Op) (out : List Bool) (s : LPTwoQ.State)
    (ho : ∀ op ∈ ops, Calls noEvict (fun _ => True) op) (hr : Reaches LPTwoQ.algo (LPTwoQ.init cs as gs) ops out s) (r : Req) :
    (bytes 0 (cont s.ain.objs) > as → ∃ o s', LPTwoQ.algo.evict s r = .ok s' ∧ s.ain.objs = s'.ain.objs ++ [o] ∧ s'.am = s.am ∧ (o.size ≤ gs → o.id ∈ LPTwoQ_aout s')) ∧
    (¬ bytes 0 (cont s.ain.objs) > as → LPTwoQ_am s ≠ [] →
      ∃ s', LPTwoQ.algo.evict s r = .ok s' ∧ Clock.view s'.am = clockEvict (Clock.view s.am) ∧ s'.ain = s.ain ∧ s'.aout = s.aout) ∧
    (¬ bytes 0 (cont s.ain.objs) > as → LPTwoQ_am s = [] → LPTwoQ.algo.evict s r = .error .nullDeref) := by
  have hi := (LPTwoQ.medium (cs := cs) (as := as) gs noEvict rfl).reach (LPTwoQ.inv_init gs _ h) ho hr
  rw [bytes_eq_charge]
  have hocc : s.ain.base.occ > (s.ainSize : Int) ↔ charge 0 (cont s.ain.objs) > as := by rw [hi.ain.occ, hi.ainz]; omega
  have hq : s.am.q.Perm s.am.base.cached.ids := by
    rw [Contents.ids, map_id_eq]
    exact hi.am.1.q.q
  have hlen : (LPTwoQ_am s).length = s.am.base.cached.ids.length := hi.am.view_perm.length_eq
  refine ⟨fun hx => ?_, fun hx hne => ?_, fun hx he => ?_⟩
  · obtain ⟨l, o, e⟩ := exists_last_of_charge (show 0 < charge 0 (cont s.ain.objs) by omega)
    obtain ⟨b, g, a, g1, k1, k2, k3⟩ := LPTwoQ.evictAin hi e (hocc.2 hx) r
    refine ⟨o, _, k1, ?_, rfl, fun hsz => hi.aout.fifoGet_in o.toReq hsz g1⟩
    rw [e]; exact congrArg (· ++ [o]) k3.symm
  · have hne' : s.am.base.cached ≠ [] := by
      intro h0
      rw [h0] at hlen
      exact hne (List.length_eq_zero_iff.1 hlen)
    obtain ⟨m, v, k1, _, _, k4⟩ := LPTwoQ.evictAm hi hne' (fun hh => hx (hocc.1 hh)) r
    exact ⟨_, k1, k4, rfl, rfl⟩
  · show LPTwoQ.evict s r = _
    have he' : s.am.q = [] := by
      rw [he] at hlen
      have := hq.length_eq
      rw [← hlen] at this
      exact List.length_eq_zero_iff.1 this
    rw [LPTwoQ.evict, if_neg (fun hh => hx (hocc.1 hh))]
    have : Clock.algo.evict s.am r = .error .nullDeref := by
      show Clock.evict s.am = _
      unfold Clock.evict Clock.scan
      rw [qTail, he']
      rfl
    rw [this]
    rfl

example : ¬ bytes 0 (cont LPTwoQ_demo.ain.objs) ≤ 2 := by decide
example : (LPTwoQ.algo.run (LPTwoQ.init 8 4 9) [.get ⟨1, 4, -2⟩, .get ⟨2, 4, -2⟩, .get ⟨3, 4, -2⟩, .get ⟨1, 4, -2⟩]).map
    (fun p => (LPTwoQ_ain p.2, LPTwoQ_am p.2)) = .ok ([3], [1]) := rfl

/-- C89, last part: every call ends without a fault, and Ain and Am together stay within the cache size; so does Am within its share. -/
theorem C89_terminatesWithinSize_LPTwoQ (cs as gs : Nat) (h : 2 * as ≤ cs) (ops : List Op) (ho : ∀ op ∈ ops, Calls noEvict (fun _ => True) op) :
    ∃ out s, Reaches LPTwoQ.algo (LPTwoQ.init cs as gs) ops out s ∧ bytes 0 (LPTwoQ_cached s) ≤ cs ∧ bytes 0 s.am.base.cached ≤ cs - as ∧ bytes 0 s.aout.base.cached ≤ gs := by
  have C := LPTwoQ.medium (cs := cs) (as := as) gs noEvict rfl
  have h0 := LPTwoQ.inv_init (as := as) gs (noEvict.ins = false) h
  obtain ⟨out, s, hr⟩ := C.safe h0 ops ho
  have hi := C.reach h0 ho hr
  simp only [bytes_eq_charge]
  exact ⟨out, s, hr, hi.cap, hi.am.charge_le, hi.aout.charge_le⟩

/-- C89, the whole discipline: without client inserts LP_TwoQ answers every call as the textbook 2Q (`Verif/Spec/TwoQ.lean`) whose Am is a CLOCK with one
reference bit, and its three queues are those of the textbook, in the same order. -/
theorem C89_follows_LPTwoQ_partial (cs as gs : Nat) (h : 2 * as ≤ cs) (ops : List Op) (ho : ∀ op ∈ ops, Calls { ev := false, ins := false } (fun _ => True) op) :
    ∃ out s, Reaches LPTwoQ.algo (LPTwoQ.init cs as gs) ops out s ∧
      Spec.TwoQ.run (clock 1) cs as gs ⟨[], [], []⟩ ops = (out, ⟨cont s.ain.objs, s.aout.order, Clock.view s.am⟩) := by
  have C := LPTwoQ.medium (cs := cs) (as := as) gs { ev := false, ins := false } rfl
  obtain ⟨out, s, hr⟩ := C.safe (LPTwoQ.inv_init gs _ h) ops ho
  exact ⟨out, s, hr, LPTwoQ.run_view ops (LPTwoQ.inv_init gs _ h) ho hr⟩

/-- the queues after a run with hits, ghost hits and evictions from both queues: CLOCK keeps object 1 -/
example : ((LPTwoQ.algo.run (LPTwoQ.init 10 3 9) TwoQ_ops').map (fun p => (p.1, LPTwoQ_ain p.2, p.2.aout.order, Clock.view p.2.am))) =
    .ok ([false, false, true, false, false, false, false, true, true, true, false, false, false, false, false, true, false],
      [9, 6], [(5, 3)], [⟨1, 3, 0⟩]) := rfl

end Verif.Props
