import Verif.Proof.TwoQFollows
import Verif.Props.Demo
/-!
# Properties of TwoQ (libCacheSim/cache/eviction/TwoQ.c)

The statements are those of `Verif/Spec/Cache.lean`.  They hold for every cache size `cs`, every size `as ≤ cs / 2` of Ain (the default is a quarter),
every size `gs` of Aout and every sequence of client calls without `evict`, where not stated otherwise; object metadata is not considered (`amMd = 0`).
The theorems named `_fails` show what goes wrong outside these bounds.  TwoQ never asks the admission policy (TwoQ.c:314-318), and its `to_evict` is
an assertion failure (TwoQ.c:244-247), so C10 does not apply to it.
-/

namespace Verif.Props
open Verif Verif.Spec
set_option linter.unusedVariables false
set_option maxRecDepth 20000

/-- what TwoQ has cached: the objects of Ain and Am -/
abbrev TwoQ_cached (s : TwoQ.State) : Contents := TwoQ.cached s

/-- the ids in Ain (youngest first), in Aout, and in Am (most recent first) -/
def TwoQ_ain (s : TwoQ.State) : List ObjId := s.ain.objs.map (·.id)
def TwoQ_aout (s : TwoQ.State) : List ObjId := s.aout.base.cached.ids
def TwoQ_am (s : TwoQ.State) : List ObjId := s.am.q

/-- the client calls: everything but `evict` -/
abbrev noEvict : Perms := { ev := false }

/-- a demo run: hits in both queues, ghost hits, evictions from both queues, removals, an insertion, a too large object -/
def TwoQ_ops : List Op := [.get ⟨1, 3, -2⟩, .get ⟨2, 3, -2⟩, .get ⟨1, 3, -2⟩, .get ⟨3, 3, -2⟩, .get ⟨4, 2, -2⟩, .get ⟨1, 3, -2⟩, .get ⟨7, 30, -2⟩,
  .find ⟨1, 3, -2⟩ true, .find ⟨4, 2, -2⟩ false, .remove 4, .remove 9, .get ⟨5, 3, -2⟩, .get ⟨2, 3, -2⟩, .get ⟨6, 3, -2⟩, .get ⟨3, 3, -2⟩,
  .insert ⟨8, 1, -2⟩, .get ⟨1, 3, -2⟩, .get ⟨9, 2, -2⟩]

def TwoQ_demo : TwoQ.State :=
  match TwoQ.algo.run (TwoQ.init 10 3 9 0) TwoQ_ops with
  | .ok p => p.2
  | .error _ => TwoQ.init 10 3 9 0

theorem TwoQ_demo_reached : Reaches TwoQ.algo (TwoQ.init 10 3 9 0) TwoQ_ops
    [false, false, true, false, false, false, false, true, true, true, false, false, false, false, false, true, false, false]
    TwoQ_demo ∧ TwoQ_ain TwoQ_demo = [9, 1] ∧ TwoQ_aout TwoQ_demo = [8, 6, 5] ∧ TwoQ_am TwoQ_demo = [3] :=
  ⟨rfl, by decide, by decide, by decide⟩

/-- the end state of a run -/
def TwoQ_after (s0 : TwoQ.State) (ops : List Op) : TwoQ.State :=
  match TwoQ.algo.run s0 ops with
  | .ok p => p.2
  | .error _ => s0

theorem C01_capacity_TwoQ_partial (cs as gs : Nat) (h : 2 * as ≤ cs) :
    Capacity TwoQ.algo (TwoQ.init cs as gs 0) (Calls noEvict (fun _ => True)) cs :=
  (TwoQ.medium gs noEvict rfl).capacity (TwoQ.inv_init gs _ h)

example : TwoQ.algo.occ TwoQ_demo = 8 := by decide

/-- C01 fails when object metadata is considered: Am charges 16 bytes more per object than the cache made room for. -/
theorem C01_capacity_fails_TwoQ :
    ¬ Capacity TwoQ.algo (TwoQ.init 40 10 40 16) (Calls { rem := false, ev := false, ins := false } (fun _ => True)) 40 := by
  intro h
  have := h [.get ⟨1, 10, -2⟩, .get ⟨2, 10, -2⟩, .get ⟨3, 10, -2⟩, .get ⟨4, 10, -2⟩, .get ⟨5, 10, -2⟩, .get ⟨1, 10, -2⟩] _
    (TwoQ_after (TwoQ.init 40 10 40 16) [.get ⟨1, 10, -2⟩, .get ⟨2, 10, -2⟩, .get ⟨3, 10, -2⟩, .get ⟨4, 10, -2⟩, .get ⟨5, 10, -2⟩, .get ⟨1, 10, -2⟩])
    (by simp [Calls]) (show TwoQ.algo.run _ _ = .ok ([false, false, false, false, false, false], _) from rfl)
  revert this
  decide

theorem C02_accounting_TwoQ_partial (cs as gs : Nat) (h : 2 * as ≤ cs) :
    Accounting TwoQ.algo TwoQ_cached (TwoQ.init cs as gs 0) (Calls noEvict (fun _ => True)) 0 :=
  (TwoQ.medium gs noEvict rfl).accounting (TwoQ.inv_init gs _ h)

example : TwoQ.algo.nObj TwoQ_demo = 3 := by decide

theorem C03_hitIffCached_TwoQ_partial (cs as gs : Nat) (h : 2 * as ≤ cs) :
    HitIffCached TwoQ.algo TwoQ_cached (TwoQ.init cs as gs 0) (Calls noEvict (fun _ => True)) :=
  (TwoQ.medium gs noEvict rfl).hitIffCached (TwoQ.inv_init gs _ h)

/-- Without client inserts. -/
theorem C04_noPhantom_TwoQ_partial (cs as gs : Nat) (h : 2 * as ≤ cs) :
    NoPhantom TwoQ.algo TwoQ_cached (TwoQ.init cs as gs 0) (Calls { ev := false, ins := false } (fun _ => True)) := by
  refine (TwoQ.medium gs { ev := false, ins := false } rfl).noPhantom (TwoQ.inv_init gs _ h) rfl ?_
  intro _ s s' b id hi he
  obtain ⟨s'', k1, _, _, k4, _⟩ := TwoQ.remove_spec hi id
  rw [show TwoQ.algo.remove s id = TwoQ.remove s id from rfl, k1] at he
  injection he with he
  injection he with _ he
  rw [← he]
  intro hx
  obtain ⟨y, hy, hye⟩ := List.mem_map.1 hx
  have := List.of_mem_filter ((k4 rfl).subset hy)
  simp [hye] at this

theorem C04_addsOnlyRequested_TwoQ_partial (cs as gs : Nat) (h : 2 * as ≤ cs) :
    AddsOnlyRequested TwoQ.algo TwoQ_cached (TwoQ.init cs as gs 0) (Calls noEvict (fun _ => True)) :=
  (TwoQ.medium gs noEvict rfl).addsOnlyRequested (TwoQ.inv_init gs _ h)

/-- Object 1 falls out of Ain, the client inserts it again (`insert` does not look at Aout) while another ghost was just found: it goes to Am although it is in Aout. -/
def TwoQ_stale : List Op := [.get ⟨1, 2, -2⟩, .get ⟨2, 2, -2⟩, .get ⟨3, 2, -2⟩, .get ⟨4, 2, -2⟩, .get ⟨5, 2, -2⟩, .get ⟨6, 2, -2⟩,
  .find ⟨2, 2, -2⟩ true, .remove 6, .insert ⟨1, 2, -2⟩]

theorem TwoQ_stale_calls : ∀ op ∈ TwoQ_stale, Calls noEvict (fun _ => True) op := by
  intro op hop
  simp only [TwoQ_stale, List.mem_cons, List.not_mem_nil, or_false] at hop
  rcases hop with rfl | rfl | rfl | rfl | rfl | rfl | rfl | rfl | rfl <;> simp [Calls]

theorem TwoQ_stale_reached : Reaches TwoQ.algo (TwoQ.init 8 4 9 0) TwoQ_stale [false, false, false, false, false, false, false, true, true]
    (TwoQ_after (TwoQ.init 8 4 9 0) TwoQ_stale) ∧ TwoQ_am (TwoQ_after (TwoQ.init 8 4 9 0) TwoQ_stale) = [1] ∧
    1 ∈ TwoQ_aout (TwoQ_after (TwoQ.init 8 4 9 0) TwoQ_stale) := ⟨rfl, by decide, by decide⟩

/-- C07 fails for the effect when the client inserts: object 1 is cached, `remove 1` answers `true`, object 1 is still cached. -/
theorem C07_removeEffect_fails_TwoQ : ∃ ops out s s', (∀ op ∈ ops, Calls noEvict (fun _ => True) op) ∧
    Reaches TwoQ.algo (TwoQ.init 8 4 9 0) ops out s ∧ (1, 2) ∈ TwoQ_cached s ∧ TwoQ.algo.remove s 1 = .ok (true, s') ∧ (1, 2) ∈ TwoQ_cached s' :=
  ⟨TwoQ_stale, _, TwoQ_after (TwoQ.init 8 4 9 0) TwoQ_stale, TwoQ_after (TwoQ.init 8 4 9 0) (TwoQ_stale ++ [.remove 1]),
    TwoQ_stale_calls, TwoQ_stale_reached.1, by decide, rfl, by decide⟩

/-- C05: every missed object that fits into Ain is cached afterwards. -/
theorem C05_admittedMissCached_TwoQ_partial (cs as gs : Nat) (h : 2 * as ≤ cs) :
    AdmittedMissCached TwoQ.algo TwoQ_cached (fun _ r => decide (r.size ≤ as)) (TwoQ.init cs as gs 0) (Calls noEvict (fun _ => True)) := by
  intro ops out s ho hr r _ hn ha
  have hi := (TwoQ.medium (cs := cs) (as := as) gs noEvict rfl).reach (TwoQ.inv_init gs _ h) ho hr
  have hle : r.size ≤ as := of_decide_eq_true ha
  obtain ⟨s', _, _, _, k1, _, k3, _⟩ := (TwoQ.get_miss rfl hi hn).2 hle
  exact ⟨s', k1, k3.symm.subset List.mem_cons_self⟩

example : 4 ∉ (TwoQ_cached TwoQ_demo).ids ∧ decide ((⟨4, 3, -2⟩ : Req).size ≤ 3) = true := by decide

/-- What is proved of C06.  A hit evicts nothing.  A miss evicts a list of victims, the last of which the cache had to make room for; then, only when the
object is in Aout, further victims `amVictims` from Am, the last of which was in the way of Am's own share `cs - as`. -/
theorem C06_evictOnDemand_TwoQ_partial (cs as gs : Nat) (h : 2 * as ≤ cs) (ops : List Op) (out : List Bool) (s : TwoQ.State)
    (ho : ∀ op ∈ ops, Calls noEvict (fun _ => True) op) (hr : Reaches TwoQ.algo (TwoQ.init cs as gs 0) ops out s) (r : Req) (b : Bool) (s' : TwoQ.State)
    (hg : TwoQ.algo.get s r = .ok (b, s')) :
    (b = true → (TwoQ_cached s').Perm (TwoQ_cached s)) ∧
    (b = false → ∃ victims amVictims kept, (TwoQ_cached s).Perm (victims ++ amVictims ++ kept) ∧
      ((TwoQ_cached s').Perm kept ∨ (TwoQ_cached s').Perm ((r.id, r.size % u32) :: kept)) ∧
      (∀ vs v, victims = vs ++ [v] → bytes 0 (v :: (amVictims ++ kept)) + r.size > cs) ∧
      (amVictims ≠ [] → r.id ∈ TwoQ_aout s) ∧ (∀ v ∈ amVictims, v.1 ∈ TwoQ_am s) ∧
      (∀ vs v, amVictims = vs ++ [v] → ∃ am', s'.am.base.cached.Perm ((r.id, r.size % u32) :: am') ∧ bytes 0 (v :: am') + r.size > cs - as)) := by
  have C := TwoQ.medium (cs := cs) (as := as) gs noEvict rfl
  have hi := C.reach (TwoQ.inv_init gs _ h) ho hr
  by_cases hin : r.id ∈ (TwoQ_cached s).ids
  · obtain ⟨s1, hf, _⟩ := C.findHit r (TwoQ.bump_inv hi) hin (Fresh.bump trivial hi)
    have hp := C.hitPerm r (TwoQ.bump_inv hi) hf
    rw [get_hit hf] at hg
    cases hg
    exact ⟨fun _ => hp, by simp⟩
  · by_cases hsz : r.size ≤ as
    · obtain ⟨s'', vs, kept, ws, k1, k2, k3, k4, k5, k6, k7, _⟩ := (TwoQ.get_miss rfl hi hin).2 hsz
      rw [k1] at hg; cases hg
      refine ⟨by simp, fun _ => ⟨vs, ws, kept, k2, Or.inr k3, fun us v e => by rw [bytes_eq_charge]; exact k4 us v e, k7, ?_, ?_⟩⟩
      · intro v hv
        exact hi.am.q.q.symm.subset (by rw [← map_id_eq]; exact List.mem_map_of_mem (k6 v hv))
      · intro us v e
        obtain ⟨am', _, _, e1, e2⟩ := k5 us v e
        exact ⟨am', e1, by rw [bytes_eq_charge]; exact e2⟩
    · obtain ⟨s'', k1, k2, k3⟩ := (TwoQ.get_miss rfl hi hin).1 hsz
      rw [k1] at hg; cases hg
      refine ⟨by simp, fun _ => ⟨[], [], TwoQ_cached s, by simp, Or.inl ?_, by simp, by simp, by simp, by simp⟩⟩
      rw [show TwoQ_cached s' = TwoQ_cached s by simp only [TwoQ_cached, TwoQ.cached, k2, k3]]

/-- C06 fails in general: 2 bytes are requested and 2 of 8 are free, yet object 1 is evicted from Am. -/
theorem C06_evictOnDemand_fails_TwoQ :
    ¬ EvictOnDemand TwoQ.algo TwoQ_cached (TwoQ.init 8 4 9 0) (Calls noEvict (fun _ => True)) 8 0 := by
  intro h
  have hc := h [.get ⟨1, 2, -2⟩, .get ⟨2, 2, -2⟩, .get ⟨3, 2, -2⟩, .get ⟨4, 2, -2⟩, .get ⟨5, 2, -2⟩, .get ⟨6, 2, -2⟩, .get ⟨1, 2, -2⟩, .get ⟨2, 2, -2⟩, .remove 6]
    [false, false, false, false, false, false, false, false, true]
    (TwoQ_after (TwoQ.init 8 4 9 0) [.get ⟨1, 2, -2⟩, .get ⟨2, 2, -2⟩, .get ⟨3, 2, -2⟩, .get ⟨4, 2, -2⟩, .get ⟨5, 2, -2⟩, .get ⟨6, 2, -2⟩, .get ⟨1, 2, -2⟩, .get ⟨2, 2, -2⟩, .remove 6])
    (by simp [Calls]) rfl ⟨3, 2, -2⟩ false
    (TwoQ_after (TwoQ.init 8 4 9 0) [.get ⟨1, 2, -2⟩, .get ⟨2, 2, -2⟩, .get ⟨3, 2, -2⟩, .get ⟨4, 2, -2⟩, .get ⟨5, 2, -2⟩, .get ⟨6, 2, -2⟩, .get ⟨1, 2, -2⟩, .get ⟨2, 2, -2⟩, .remove 6, .get ⟨3, 2, -2⟩])
    trivial rfl
  obtain ⟨vs, kept, h1, h2, h3⟩ := hc.2 rfl
  have e1 := charge_perm (md := 0) h1
  have l1 := h1.length_eq
  simp only [← bytes_eq_charge] at e1
  rw [show bytes 0 (TwoQ_cached _) = 6 from by decide] at e1
  rw [show (TwoQ_cached _).length = 3 from by decide, List.length_append] at l1
  rcases List.eq_nil_or_concat vs with rfl | ⟨us, v, rfl⟩
  · rcases h2 with h2 | h2
    · have h4 := (h1.trans (h2.symm)).subset (show ((1, 2) : ObjId × Nat) ∈ _ from by decide)
      revert h4; decide
    · have h4 := h2.symm.subset (List.mem_cons_of_mem _ (h1.subset (show ((1, 2) : ObjId × Nat) ∈ _ from by decide)))
      revert h4; decide
  · have h4 := h3 us v (by simp)
    rw [List.concat_eq_append, List.append_assoc, bytes_eq_charge, charge_append] at e1
    rw [bytes_eq_charge] at h4
    simp only [List.singleton_append] at e1
    have : (⟨3, 2, -2⟩ : Req).size = 2 := rfl
    omega

/-- What is proved of C07: without client inserts `remove` removes exactly the object.  Its answer is also `true` for an object that is only in Aout. -/
theorem C07_removeExact_TwoQ_partial (cs as gs : Nat) (h : 2 * as ≤ cs) (ops : List Op) (out : List Bool) (s : TwoQ.State)
    (ho : ∀ op ∈ ops, Calls { ev := false, ins := false } (fun _ => True) op) (hr : Reaches TwoQ.algo (TwoQ.init cs as gs 0) ops out s) (id : ObjId) :
    ∃ s', TwoQ.algo.remove s id = .ok (decide (id ∈ (TwoQ_cached s).ids ∨ id ∈ TwoQ_aout s), s') ∧
      (TwoQ_cached s').Perm ((TwoQ_cached s).filter (fun x => x.1 ≠ id)) ∧ id ∉ TwoQ_aout s' := by
  have hi := (TwoQ.medium (cs := cs) (as := as) gs { ev := false, ins := false } rfl).reach (TwoQ.inv_init gs _ h) ho hr
  obtain ⟨s', k1, _, _, k3, _, _, k6⟩ := TwoQ.remove_spec hi id
  exact ⟨s', k1, k3 rfl, k6 rfl⟩

/-- C07 fails for the answer: removing an object that is only in Aout answers `true`. -/
theorem C07_removeExact_fails_TwoQ :
    ¬ RemoveExact TwoQ.algo TwoQ_cached (TwoQ.init 8 4 9 0) (Calls { ev := false, ins := false } (fun _ => True)) := by
  intro h
  obtain ⟨s', h1, _⟩ := h [.get ⟨1, 4, -2⟩, .get ⟨2, 4, -2⟩, .get ⟨3, 4, -2⟩] [false, false, false]
    (TwoQ_after (TwoQ.init 8 4 9 0) [.get ⟨1, 4, -2⟩, .get ⟨2, 4, -2⟩, .get ⟨3, 4, -2⟩]) (by simp [Calls]) rfl 1
  have h2 : (TwoQ.algo.remove (TwoQ_after (TwoQ.init 8 4 9 0) [.get ⟨1, 4, -2⟩, .get ⟨2, 4, -2⟩, .get ⟨3, 4, -2⟩]) 1).map (fun p => p.1) = .ok true := rfl
  rw [h1] at h2
  revert h2
  exact fun h2 => absurd h2 (by simp only [Except.map]; decide)

/-- C08: a request that is not admitted leaves Ain and Am unchanged (order and counters included).  It does drop the object's entry in Aout. -/
theorem C08_rejectQuiet_TwoQ_partial (cs as gs : Nat) (h : 2 * as ≤ cs) :
    RejectQuiet TwoQ.algo TwoQ_cached (fun _ r => decide (r.size ≤ as)) (fun s => (s.ain, s.am)) (TwoQ.init cs as gs 0)
      (Calls noEvict (fun _ => True)) := by
  intro ops out s ho hr r _ hn ha
  have hi := (TwoQ.medium (cs := cs) (as := as) gs noEvict rfl).reach (TwoQ.inv_init gs _ h) ho hr
  have hle : ¬ r.size ≤ as := of_decide_eq_false ha
  obtain ⟨s', k1, k2, k3⟩ := (TwoQ.get_miss rfl hi hn).1 hle
  exact ⟨s', k1, by simp only [k2, k3]⟩

/-- a rejected request -/
example : 7 ∉ (TwoQ_cached TwoQ_demo).ids ∧ decide ((⟨7, 5, -2⟩ : Req).size ≤ 3) = false := by decide

/-- Without client `evict` calls. -/
theorem C09_safe_TwoQ_partial (cs as gs : Nat) (h : 2 * as ≤ cs) :
    Safe TwoQ.algo (TwoQ.init cs as gs 0) (Calls noEvict (fun _ => True)) :=
  (TwoQ.medium gs noEvict rfl).safe (TwoQ.inv_init gs _ h)

/-- C09 fails with client `evict` calls: one `get`, then `evict`; Ain is within its share, Am is empty, and TwoQ evicts from Am. -/
theorem C09_evict_fails_TwoQ : TwoQ.algo.run (TwoQ.init 10 3 9 0) [.get ⟨1, 3, -2⟩, .evict ⟨0, 0, -2⟩] = .error .nullDeref := rfl

/-- C09 fails when Ain gets more than half of the cache: two `get` calls suffice to crash. -/
theorem C09_largeAin_fails_TwoQ : TwoQ.algo.run (TwoQ.init 10 8 9 0) [.get ⟨1, 8, -2⟩, .get ⟨2, 8, -2⟩] = .error .nullDeref := rfl

/-! ## C23: the three queues -/

/-- C23, first part.  Without client inserts an object is at most once in Ain, Aout and Am taken together. -/
theorem C23_oneQueue_TwoQ_partial (cs as gs : Nat) (h : 2 * as ≤ cs) (ops : List Op) (out : List Bool) (s : TwoQ.State)
    (ho : ∀ op ∈ ops, Calls { ev := false, ins := false } (fun _ => True) op) (hr : Reaches TwoQ.algo (TwoQ.init cs as gs 0) ops out s) :
    (TwoQ_ain s ++ TwoQ_aout s ++ TwoQ_am s).Nodup := by
  have hi := (TwoQ.medium (cs := cs) (as := as) gs { ev := false, ins := false } rfl).reach (TwoQ.inv_init gs _ h) ho hr
  have hq : ∀ i, i ∈ TwoQ_am s ↔ i ∈ s.am.base.cached.ids := by
    intro i
    rw [Contents.ids, map_id_eq]
    exact hi.am.q.q.mem_iff
  rw [List.nodup_append, List.nodup_append]
  refine ⟨⟨hi.ain.nodup, hi.aout.nodup, fun a ha b hb e => ?_⟩, ?_, fun a ha b hb e => ?_⟩
  · subst e
    exact hi.sep rfl a hb ((TwoQ.mem_cached s a).2 (Or.inl ha))
  · have := hi.am.nodup
    rw [Contents.ids, map_id_eq] at this
    exact hi.am.q.q.nodup_iff.2 this
  · subst e
    rcases List.mem_append.1 ha with ha | ha
    · exact hi.dis a ha ((hq a).1 hb)
    · exact hi.sep rfl a ha ((TwoQ.mem_cached s a).2 (Or.inr ((hq a).1 hb)))

example : TwoQ_ain TwoQ_demo ++ TwoQ_aout TwoQ_demo ++ TwoQ_am TwoQ_demo = [9, 1, 8, 6, 5, 3] := by decide

/-- With client inserts an object is still at most once in Ain and Am, -/
theorem C23_oneCachedQueue_TwoQ (cs as gs : Nat) (h : 2 * as ≤ cs) (ops : List Op) (out : List Bool) (s : TwoQ.State)
    (ho : ∀ op ∈ ops, Calls noEvict (fun _ => True) op) (hr : Reaches TwoQ.algo (TwoQ.init cs as gs 0) ops out s) :
    (TwoQ_ain s ++ TwoQ_am s).Nodup := by
  have hi := (TwoQ.medium (cs := cs) (as := as) gs noEvict rfl).reach (TwoQ.inv_init gs _ h) ho hr
  rw [List.nodup_append]
  refine ⟨hi.ain.nodup, ?_, fun a ha b hb e => ?_⟩
  · have := hi.am.nodup
    rw [Contents.ids, map_id_eq] at this
    exact hi.am.q.q.nodup_iff.2 this
  · subst e
    refine hi.dis a ha ?_
    rw [Contents.ids, map_id_eq]
    exact hi.am.q.q.mem_iff.1 hb

/-- but it can be in Am and in Aout. -/
theorem C23_oneQueue_fails_TwoQ : ∃ ops out s, (∀ op ∈ ops, Calls noEvict (fun _ => True) op) ∧
    Reaches TwoQ.algo (TwoQ.init 8 4 9 0) ops out s ∧ 1 ∈ TwoQ_am s ∧ 1 ∈ TwoQ_aout s :=
  ⟨_, _, _, TwoQ_stale_calls, TwoQ_stale_reached.1, by decide, by decide⟩

/-- C23, second part: without client inserts an object enters Am only by a `get` of the object while it is in Aout. -/
theorem C23_entersAm_TwoQ (cs as gs : Nat) (h : 2 * as ≤ cs) (ops : List Op) (out : List Bool) (s : TwoQ.State)
    (ho : ∀ op ∈ ops, Calls { ev := false, ins := false } (fun _ => True) op) (hr : Reaches TwoQ.algo (TwoQ.init cs as gs 0) ops out s)
    (op : Op) (hop : Calls { ev := false, ins := false } (fun _ => True) op) (b : Bool) (s' : TwoQ.State) (hs : TwoQ.algo.step s op = .ok (b, s'))
    (i : ObjId) (hnew : i ∈ s'.am.base.cached.ids) (hold : i ∉ s.am.base.cached.ids) : i ∈ TwoQ_aout s ∧ ∃ r, op = .get r ∧ r.id = i := by
  have hi := (TwoQ.medium (cs := cs) (as := as) gs { ev := false, ins := false } rfl).reach (TwoQ.inv_init gs _ h) ho hr
  exact (TwoQ.step_am rfl rfl hi hop hs i hnew).resolve_left hold

/-- and a missed object that fits goes to Am if it is in Aout, to the young end of Ain otherwise. -/
theorem C23_whereMissesGo_TwoQ (cs as gs : Nat) (h : 2 * as ≤ cs) (ops : List Op) (out : List Bool) (s : TwoQ.State)
    (ho : ∀ op ∈ ops, Calls noEvict (fun _ => True) op) (hr : Reaches TwoQ.algo (TwoQ.init cs as gs 0) ops out s)
    (r : Req) (hn : r.id ∉ (TwoQ_cached s).ids) (hsz : r.size ≤ as) :
    ∃ s', TwoQ.algo.get s r = .ok (false, s') ∧ (r.id ∈ TwoQ_aout s → r.id ∈ TwoQ_am s') ∧ (r.id ∉ TwoQ_aout s → ∃ l, TwoQ_ain s' = r.id :: l) := by
  have C := TwoQ.medium (cs := cs) (as := as) gs noEvict rfl
  have hi := C.reach (TwoQ.inv_init gs _ h) ho hr
  obtain ⟨s', _, _, _, k1, _, _, _, _, _, _, k8, k9, _⟩ := (TwoQ.get_miss rfl hi hn).2 hsz
  obtain ⟨s'', e1, hi', _⟩ := C.toContract.get r trivial hi
  rw [k1] at e1
  injection e1 with e1
  injection e1 with _ e1
  subst e1
  refine ⟨s', k1, fun hx => ?_, fun hx => ?_⟩
  · have := k8 hx
    rw [Contents.ids, map_id_eq] at this
    exact hi'.am.q.q.mem_iff.2 this
  · obtain ⟨l, e⟩ := k9 hx
    exact ⟨l.map (·.id), by rw [TwoQ_ain, e]; rfl⟩

/-- both occur in the demo state -/
example : (6 ∉ (TwoQ_cached TwoQ_demo).ids ∧ 6 ∈ TwoQ_aout TwoQ_demo) ∧ (4 ∉ (TwoQ_cached TwoQ_demo).ids ∧ 4 ∉ TwoQ_aout TwoQ_demo) := by decide

/-- A hit in Ain moves nothing; a hit in Am moves the object to Am's most recent end. -/
theorem C23_hit_TwoQ (cs as gs : Nat) (h : 2 * as ≤ cs) (ops : List Op) (out : List Bool) (s : TwoQ.State)
    (ho : ∀ op ∈ ops, Calls noEvict (fun _ => True) op) (hr : Reaches TwoQ.algo (TwoQ.init cs as gs 0) ops out s) (r : Req) :
    (r.id ∈ TwoQ_ain s → ∃ s', TwoQ.algo.get s r = .ok (true, s') ∧ s'.ain = s.ain ∧ s'.am = s.am ∧ s'.aout = s.aout) ∧
    (r.id ∈ TwoQ_am s → ∃ s', TwoQ.algo.get s r = .ok (true, s') ∧ s'.ain = s.ain ∧ TwoQ_am s' = r.id :: (TwoQ_am s).erase r.id) := by
  have hi := (TwoQ.medium (cs := cs) (as := as) gs noEvict rfl).reach (TwoQ.inv_init gs _ h) ho hr
  refine ⟨fun hin => ?_, fun hin => ?_⟩
  · have hf := TwoQ.findAin (TwoQ.bump_inv hi) hin
    exact ⟨_, get_hit hf, rfl, rfl, rfl⟩
  · have hin' : r.id ∈ s.am.base.cached.ids := by rw [Contents.ids, map_id_eq]; exact hi.am.q.q.mem_iff.1 hin
    have hna : r.id ∉ s.ain.objs.map (·.id) := fun hx => hi.dis _ hx hin'
    obtain ⟨g, m, k1, _, _, _, k5, _⟩ := TwoQ.findAm (TwoQ.bump_inv hi) hna
    rw [show decide (r.id ∈ (TwoQ.algo.bump s).am.base.cached.ids) = true from decide_eq_true hin'] at k1
    exact ⟨_, get_hit k1, rfl, k5 hin'⟩

/-- C23: whom `evict` takes.  While Ain holds more than its share: the oldest object of Ain, whose id then is in Aout if the object fits there.  Otherwise
the least recent object of Am, if there is one; if there is none, the call crashes. -/
theorem C23_victim_TwoQ (cs as gs : Nat) (h : 2 * as ≤ cs) (ops : List Op) (out : List Bool) (s : TwoQ.State)
    (ho : ∀ op ∈ ops, Calls noEvict (fun _ => True) op) (hr : Reaches TwoQ.algo (TwoQ.init cs as gs 0) ops out s) (r : Req) :
    (bytes 0 (cont s.ain.objs) > as → ∃ o s', TwoQ.algo.evict s r = .ok s' ∧ s.ain.objs = s'.ain.objs ++ [o] ∧ s'.am = s.am ∧ (o.size ≤ gs → o.id ∈ TwoQ_aout s')) ∧
    (¬ bytes 0 (cont s.ain.objs) > as → TwoQ_am s ≠ [] →
      ∃ v s', TwoQ.algo.evict s r = .ok s' ∧ TwoQ_am s = TwoQ_am s' ++ [v] ∧ s'.ain = s.ain ∧ s'.aout = s.aout) ∧
    (¬ bytes 0 (cont s.ain.objs) > as → TwoQ_am s = [] → TwoQ.algo.evict s r = .error .nullDeref) := by
  have hi := (TwoQ.medium (cs := cs) (as := as) gs noEvict rfl).reach (TwoQ.inv_init gs _ h) ho hr
  rw [bytes_eq_charge]
  have hocc : s.ain.base.occ > (s.ainSize : Int) ↔ charge 0 (cont s.ain.objs) > as := by rw [hi.ain.occ, hi.ainz]; omega
  refine ⟨fun hx => ?_, fun hx hne => ?_, fun hx he => ?_⟩
  · obtain ⟨l, o, e⟩ := exists_last_of_charge (show 0 < charge 0 (cont s.ain.objs) by omega)
    obtain ⟨b, g, a, g1, k1, k2, k3⟩ := TwoQ.evictAin hi e (hocc.2 hx) r
    refine ⟨o, _, k1, ?_, rfl, fun hsz => hi.aout.fifoGet_in o.toReq hsz g1⟩
    rw [e]; exact congrArg (· ++ [o]) k3.symm
  · have hne' : s.am.base.cached ≠ [] := by
      intro h0
      apply hne
      have := hi.am.q.q.length_eq
      have h1 : s.am.base.tbl = [] := List.map_eq_nil_iff.1 h0
      rw [h1] at this
      exact List.length_eq_zero_iff.1 this
    obtain ⟨m, v, k1, _, _, k4⟩ := TwoQ.evictAm hi hne' (fun hh => hx (hocc.1 hh)) r
    exact ⟨v.1, _, k1, k4, rfl, rfl⟩
  · show TwoQ.evict s r = _
    have he' : s.am.q = [] := he
    rw [TwoQ.evict, if_neg (fun hh => hx (hocc.1 hh))]
    have : LRU.algo.evict s.am r = .error .nullDeref := by
      show QState.evictTail s.am = _
      rw [QState.evictTail, qTail, he']
      rfl
    rw [this]
    rfl

example : ¬ bytes 0 (cont TwoQ_demo.ain.objs) ≤ 3 := by decide
example : (TwoQ.algo.run (TwoQ.init 8 4 9 0) [.get ⟨1, 4, -2⟩, .get ⟨2, 4, -2⟩, .get ⟨3, 4, -2⟩, .get ⟨1, 4, -2⟩]).map
    (fun p => (TwoQ_ain p.2, TwoQ_am p.2)) = .ok ([3], [1]) := rfl

/-- C23, last part: every call ends without a fault, and Ain and Am together stay within the cache size; so does Am within its share. -/
theorem C23_terminatesWithinSize_TwoQ (cs as gs : Nat) (h : 2 * as ≤ cs) (ops : List Op) (ho : ∀ op ∈ ops, Calls noEvict (fun _ => True) op) :
    ∃ out s, Reaches TwoQ.algo (TwoQ.init cs as gs 0) ops out s ∧ bytes 0 (TwoQ_cached s) ≤ cs ∧ bytes 0 s.am.base.cached ≤ cs - as ∧ bytes 0 s.aout.base.cached ≤ gs := by
  have C := TwoQ.medium (cs := cs) (as := as) gs noEvict rfl
  have h0 := TwoQ.inv_init (as := as) gs (noEvict.ins = false) h
  obtain ⟨out, s, hr⟩ := C.safe h0 ops ho
  have hi := C.reach h0 ho hr
  simp only [bytes_eq_charge]
  exact ⟨out, s, hr, hi.cap, hi.am.charge_le, hi.aout.charge_le⟩

/-- C23, the whole discipline: without client inserts TwoQ answers every call as the textbook 2Q (`Verif/Spec/TwoQ.lean`) and its three queues are those of
the textbook, in the same order. -/
theorem C23_follows_TwoQ_partial (cs as gs : Nat) (h : 2 * as ≤ cs) (ops : List Op) (ho : ∀ op ∈ ops, Calls { ev := false, ins := false } (fun _ => True) op) :
    ∃ out s, Reaches TwoQ.algo (TwoQ.init cs as gs 0) ops out s ∧
      Spec.TwoQ.run lru cs as gs ⟨[], [], []⟩ ops = (out, ⟨cont s.ain.objs, s.aout.order, s.am.order⟩) := by
  have C := TwoQ.medium (cs := cs) (as := as) gs { ev := false, ins := false } rfl
  obtain ⟨out, s, hr⟩ := C.safe (TwoQ.inv_init gs _ h) ops ho
  exact ⟨out, s, hr, TwoQ.run_view ops (TwoQ.inv_init gs _ h) ho hr⟩

/-- the answers and the three queues after the demo run with a request in place of the insertion -/
def TwoQ_ops' : List Op := TwoQ_ops.take 15 ++ [.get ⟨1, 3, -2⟩, .get ⟨9, 2, -2⟩]
example : (Spec.TwoQ.run lru 10 3 9 ⟨[], [], []⟩ TwoQ_ops').1 =
      [false, false, true, false, false, false, false, true, true, true, false, false, false, false, false, false, false] ∧
    (Spec.TwoQ.run lru 10 3 9 ⟨[], [], []⟩ TwoQ_ops').2.ain = [(9, 2), (1, 3)] ∧ (Spec.TwoQ.run lru 10 3 9 ⟨[], [], []⟩ TwoQ_ops').2.aout = [(6, 3), (5, 3)] ∧
    (Spec.TwoQ.run lru 10 3 9 ⟨[], [], []⟩ TwoQ_ops').2.am = [(3, 3)] := by decide

end Verif.Props
