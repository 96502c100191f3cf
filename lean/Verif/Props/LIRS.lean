import Verif.Proof.LIRSRun
import Verif.Props.Demo
/-!
# Properties of LIRS (libCacheSim/cache/eviction/LIRS.c)

The statements are those of `Verif/Spec/Cache.lean` and `Verif/Spec/LIRS.lean`.  They hold for every cache size, every size of the queue up to half of it (the C code takes a
hundredth), every admission policy and every sequence of `get` and of `find` with update in which each object has one size, of at most a third of the queue or larger than
the queue.  Object metadata is not considered.  The theorems named `_fails` show what goes wrong outside these bounds.
-/

namespace Verif.Props
open Verif Verif.Spec Verif.Spec.LIRS
set_option linter.unusedVariables false
set_option maxRecDepth 20000

/-- what LIRS has cached: the LIR objects of the stack and the objects of the queue -/
abbrev LIRS_cached (s : LIRS.State) : Contents := LIRS.cached s

/-- the sizes of a cache of `cs` bytes whose queue has `hl` -/
abbrev LIRS_limits (cs hl : Nat) : Limits := ⟨cs, cs - hl, hl⟩

/-- Admission: the policy says yes, and the object fits into the cache and into the queue. -/
def LIRS_admits (cs hl : Nat) (s : LIRS.State) (r : Req) : Bool := (s.base.adm.admit r).1 && decide (r.size ≤ cs) && decide (r.size ≤ hl)

/-- The stack, the queue and the ghosts: ids, sizes and flags. -/
abbrev LIRS_lists (s : LIRS.State) : Spec.LIRS.State := LIRS.view s

def LIRS_gets (l : List (Nat × Nat)) : List Op := l.map (fun x => Op.get ⟨x.1, x.2, -2⟩)

/-- a demo run: a hit in the queue, a hit in the stack, evictions, an object that comes back, one that is too large -/
def LIRS_ops : List Op := LIRS_gets [(1, 2), (2, 2), (3, 2), (4, 1), (5, 2), (6, 2), (7, 2), (4, 1), (8, 1), (1, 2), (9, 7), (4, 1)] ++ [.find ⟨7, 2, -2⟩ true]

/-- the sizes of the objects in the demo run -/
def LIRS_sz : ObjId → Nat := fun id => match id with | 4 => 1 | 8 => 1 | 9 => 7 | 10 => 1 | _ => 2

def LIRS_x0 (cs hl : Nat) : LIRS.State := LIRS.init cs hl 0 .none false
def LIRS_demo : LIRS.State := after LIRS.algo (LIRS_x0 12 6) LIRS_ops

theorem LIRS_demo_reached : Reaches LIRS.algo (LIRS_x0 12 6) LIRS_ops [false, false, false, false, false, false, false, false, false, true, false, true, true] LIRS_demo ∧
    LIRS_cached LIRS_demo = [(7, 2), (4, 1), (8, 1), (3, 2), (2, 2), (1, 2)] ∧ (LIRS_lists LIRS_demo).gone = [6, 5] ∧
    (LIRS_lists LIRS_demo).stack = [⟨7, 2, true, true⟩, ⟨4, 1, true, true⟩, ⟨1, 2, false, true⟩, ⟨8, 1, true, true⟩, ⟨6, 2, false, false⟩, ⟨5, 2, false, false⟩, ⟨3, 2, true, true⟩] :=
  ⟨reaches_after (by decide +kernel), by decide +kernel, by decide +kernel, by decide +kernel⟩

theorem LIRS_demo_calls : ∀ op ∈ LIRS_ops, Calls looks (Third (LIRS_limits 12 6) LIRS_sz) op := by
  intro op hop
  simp only [LIRS_ops, LIRS_gets, List.map_cons, List.map_nil, List.cons_append, List.nil_append, List.mem_cons, List.not_mem_nil, or_false] at hop
  rcases hop with rfl | rfl | rfl | rfl | rfl | rfl | rfl | rfl | rfl | rfl | rfl | rfl | rfl <;> simp [Calls, Third, LIRS_sz, looks, u32]

section
variable (sz : ObjId → Nat) (cs hl : Nat) (adm : Adm) (strict : Bool) (h2 : 2 * hl ≤ cs)
include h2

theorem LIRS_lim : (LIRS_limits cs hl).cold ≤ (LIRS_limits cs hl).hot := by show hl ≤ cs - hl; omega
theorem LIRS_cap : (LIRS_limits cs hl).hot + (LIRS_limits cs hl).cold = (LIRS_limits cs hl).cache := by show cs - hl + hl = cs; omega

/-- LIRS.c does exactly what LIRS on lists does: the same answers, the same stack, queue and ghosts after every sequence of calls. -/
theorem C83_lirs_LIRS_partial (ops : List Op) (ho : ∀ op ∈ ops, Calls looks (Third (LIRS_limits cs hl) sz) op) :
    ∃ s, Reaches LIRS.algo (LIRS.init cs hl 0 adm strict) ops (Spec.LIRS.run (LIRS_limits cs hl) { adm := adm } ops).1 s ∧
      LIRS_lists s = (Spec.LIRS.run (LIRS_limits cs hl) { adm := adm } ops).2 := by
  obtain ⟨s, e, _, v⟩ := LIRS.run_sim (LIRS_lim cs hl h2) (LIRS_cap cs hl h2) ops _ (LIRS.rinv_init (sz := sz) cs hl adm strict) ho
  rw [(LIRS.sim_init cs hl adm strict).view] at e v
  exact ⟨s, e, v⟩

/-- What LIRS remembers is bounded: after each `get` the blocks of the stack, cached or not, have together at most twice the size of the cache. -/
theorem C83_stackBounded_LIRS_partial (ops : List Op) (out : List Bool) (s : LIRS.State) (ho : ∀ op ∈ ops, Calls looks (Third (LIRS_limits cs hl) sz) op)
    (hreach : Reaches LIRS.algo (LIRS.init cs hl 0 adm strict) ops out s) (r : Req) (hr : Third (LIRS_limits cs hl) sz r) :
    ∃ b s', LIRS.algo.get s r = .ok (b, s') ∧ ((LIRS_lists s').stack.map (·.size)).sum ≤ 2 * cs := by
  have h := LIRS.reach (LIRS_lim cs hl h2) (LIRS_cap cs hl h2) (LIRS.rinv_init (sz := sz) cs hl adm strict) ho hreach
  obtain ⟨b, s', e, _, _, hle⟩ := h.get (LIRS_lim cs hl h2) (LIRS_cap cs hl h2) hr
  exact ⟨b, s', e, hle⟩

/-- Hot objects have at most the size of the cache without the queue, cold ones that of the queue; no object is both. -/
theorem C83_parts_LIRS_partial (ops : List Op) (out : List Bool) (s : LIRS.State) (ho : ∀ op ∈ ops, Calls looks (Third (LIRS_limits cs hl) sz) op)
    (hreach : Reaches LIRS.algo (LIRS.init cs hl 0 adm strict) ops out s) :
    bytes 0 (hotOf (LIRS_lists s).stack) ≤ cs - hl ∧ bytes 0 (LIRS_lists s).queue ≤ hl ∧ ∀ x ∈ (hotOf (LIRS_lists s).stack).ids, x ∉ (LIRS_lists s).queue.ids := by
  have h := LIRS.reach (LIRS_lim cs hl h2) (LIRS_cap cs hl h2) (LIRS.rinv_init (sz := sz) cs hl adm strict) ho hreach
  refine ⟨h.inv.core.hotLe, h.inv.core.coldLe, ?_⟩
  intro x hx
  obtain ⟨y, hy, e⟩ := List.mem_map.1 hx
  obtain ⟨b, hb, hh, e'⟩ := Spec.LIRS.mem_hotOf.1 hy
  rw [← e, ← e']
  exact h.inv.core.hotNotQueued hb hh

theorem C01_capacity_LIRS_partial : Capacity LIRS.algo (LIRS.init cs hl 0 adm strict) (Calls looks (Third (LIRS_limits cs hl) sz)) cs := by
  intro ops out s ho hreach
  exact (LIRS.reach (LIRS_lim cs hl h2) (LIRS_cap cs hl h2) (LIRS.rinv_init cs hl adm strict) ho hreach).capacity (LIRS_cap cs hl h2)

theorem C02_accounting_LIRS_partial : Accounting LIRS.algo LIRS_cached (LIRS.init cs hl 0 adm strict) (Calls looks (Third (LIRS_limits cs hl) sz)) 0 := by
  intro ops out s ho hreach
  exact (LIRS.reach (LIRS_lim cs hl h2) (LIRS_cap cs hl h2) (LIRS.rinv_init cs hl adm strict) ho hreach).accounting

/-- The part on `find` without update is void here: it is not among the calls (see `C03_peekDisturbs_LIRS_fails`). -/
theorem C03_hitIffCached_LIRS_partial : HitIffCached LIRS.algo LIRS_cached (LIRS.init cs hl 0 adm strict) (Calls looks (Third (LIRS_limits cs hl) sz)) := by
  intro ops out s ho hreach
  have h := LIRS.reach (LIRS_lim cs hl h2) (LIRS_cap cs hl h2) (LIRS.rinv_init cs hl adm strict) ho hreach
  refine ⟨fun r hr => ?_, fun r _ => ?_, fun r hr => ?_⟩
  · simp [Calls, looks] at hr
  · obtain ⟨s', e, _⟩ := h.find (LIRS_lim cs hl h2) r
    exact ⟨s', e⟩
  · obtain ⟨b, s', e, _, g, _⟩ := h.get (LIRS_lim cs hl h2) (LIRS_cap cs hl h2) hr
    refine ⟨s', ?_⟩
    rw [e, g.answer, LIRS_cached, LIRS.cached_eq]

theorem C04_noPhantom_LIRS_partial : NoPhantom LIRS.algo LIRS_cached (LIRS.init cs hl 0 adm strict) (Calls looks (Third (LIRS_limits cs hl) sz)) :=
  LIRS.noPhantom (LIRS_lim cs hl h2) (LIRS_cap cs hl h2) (LIRS.rinv_init cs hl adm strict) rfl

theorem C04_addsOnlyRequested_LIRS_partial : AddsOnlyRequested LIRS.algo LIRS_cached (LIRS.init cs hl 0 adm strict) (Calls looks (Third (LIRS_limits cs hl) sz)) := by
  intro ops out s ho hreach op b s' hop e
  have h := LIRS.reach (LIRS_lim cs hl h2) (LIRS_cap cs hl h2) (LIRS.rinv_init cs hl adm strict) ho hreach
  exact (h.adds (LIRS_lim cs hl h2) (LIRS_cap cs hl h2) hop e).2

theorem C05_admittedMissCached_LIRS_partial : AdmittedMissCached LIRS.algo LIRS_cached (LIRS_admits cs hl) (LIRS.init cs hl 0 adm strict) (Calls looks (Third (LIRS_limits cs hl) sz)) := by
  intro ops out s ho hreach r hr hout hadm
  have h := LIRS.reach (LIRS_lim cs hl h2) (LIRS_cap cs hl h2) (LIRS.rinv_init cs hl adm strict) ho hreach
  obtain ⟨b, s', e, _, g, _⟩ := h.get (LIRS_lim cs hl h2) (LIRS_cap cs hl h2) hr
  have hb : b = false := by
    rw [g.answer]
    rw [LIRS_cached, LIRS.cached_eq] at hout
    exact decide_eq_false hout
  subst hb
  have ha : Spec.LIRS.admits (LIRS_limits cs hl) (LIRS.view s) r := by
    unfold LIRS_admits at hadm
    simp only [Bool.and_eq_true, decide_eq_true_eq] at hadm
    exact ⟨hadm.1.1, hadm.1.2, hadm.2⟩
  obtain ⟨vs, rest, _, hp, _⟩ := g.yes rfl ha
  refine ⟨s', e, ?_⟩
  rw [LIRS_cached, LIRS.cached_eq, Nat.mod_eq_of_lt (show Third (LIRS_limits cs hl) sz r from hr).2.1]
  exact hp.symm.subset List.mem_cons_self

/-- C06 in part: a request evicts objects and adds at most the requested one; nothing is evicted for an object that is not on the stack while the hot part or the queue has
room for it.  Missing: that a hit evicts nothing (`C06_hitEvicts_LIRS_fails`), and that no victim is superfluous. -/
theorem C06_evictOnDemand_LIRS_partial (ops : List Op) (out : List Bool) (s : LIRS.State) (ho : ∀ op ∈ ops, Calls looks (Third (LIRS_limits cs hl) sz) op)
    (hreach : Reaches LIRS.algo (LIRS.init cs hl 0 adm strict) ops out s) (r : Req) (hr : Third (LIRS_limits cs hl) sz r) :
    ∃ b s' victims kept, LIRS.algo.get s r = .ok (b, s') ∧ (LIRS_cached s).Perm (victims ++ kept) ∧
      (b = true → (LIRS_cached s').Perm kept) ∧
      (b = false → LIRS_admits cs hl s r = true → (LIRS_cached s').Perm ((r.id, r.size) :: kept) ∧
        (r.id ∉ Spec.LIRS.ids (LIRS_lists s).stack →
          bytes 0 (hotOf (LIRS_lists s).stack) + r.size ≤ cs - hl ∨ bytes 0 (LIRS_lists s).queue + r.size ≤ hl → victims = [])) ∧
      (b = false → LIRS_admits cs hl s r = false → victims = [] ∧ (LIRS_cached s').Perm kept) := by
  have h := LIRS.reach (LIRS_lim cs hl h2) (LIRS_cap cs hl h2) (LIRS.rinv_init (sz := sz) cs hl adm strict) ho hreach
  obtain ⟨b, s', e, _, g, _⟩ := h.get (LIRS_lim cs hl h2) (LIRS_cap cs hl h2) hr
  have hiff : LIRS_admits cs hl s r = true ↔ Spec.LIRS.admits (LIRS_limits cs hl) (LIRS.view s) r := by
    unfold LIRS_admits Spec.LIRS.admits
    simp only [Bool.and_eq_true, decide_eq_true_eq, and_assoc]
    rfl
  simp only [LIRS_cached, LIRS.cached_eq]
  cases b with
  | true =>
    obtain ⟨vs, hp⟩ := g.onHit rfl
    exact ⟨true, s', vs, _, e, hp, fun _ => List.Perm.refl _, fun hb => (by cases hb), fun hb => (by cases hb)⟩
  | false =>
    by_cases ha : Spec.LIRS.admits (LIRS_limits cs hl) (LIRS.view s) r
    · obtain ⟨vs, rest, hp, hq, hv⟩ := g.yes rfl ha
      exact ⟨false, s', vs, rest, e, hp, fun hb => (by cases hb), fun _ _ => ⟨hq, hv⟩, fun _ hn => by rw [hiff.2 ha] at hn; cases hn⟩
    · exact ⟨false, s', [], _, e, List.Perm.refl _, fun hb => (by cases hb), fun _ hy => absurd (hiff.1 hy) ha, fun _ _ => ⟨rfl, (g.no rfl ha).symm⟩⟩

/-- C07 in part: removing an object after any sequence of calls removes it and nothing else, if the memory just freed still has its contents.  The answer is also `true` for objects
that are not cached but on the stack (`C07_removesGhost_LIRS_fails`). -/
theorem C07_remove_LIRS_partial (ops : List Op) (out : List Bool) (s : LIRS.State) (ho : ∀ op ∈ ops, Calls looks (Third (LIRS_limits cs hl) sz) op)
    (hreach : Reaches LIRS.algo (LIRS.init cs hl 0 adm false) ops out s) (hs : s.strict = false) (id : ObjId) :
    ∃ s', LIRS.algo.remove s id = .ok (decide (id ∈ Spec.LIRS.ids (LIRS_lists s).stack ∨ id ∈ (LIRS_lists s).queue.ids), s') ∧
      (LIRS_cached s').Perm ((LIRS_cached s).filter (fun x => x.1 ≠ id)) := by
  have h := LIRS.reach (LIRS_lim cs hl h2) (LIRS_cap cs hl h2) (LIRS.rinv_init (sz := sz) cs hl adm false) ho hreach
  exact h.remove hs id

/-- C08 in part: a request that is not admitted leaves the cached objects as they are. -/
theorem C08_rejectKeeps_LIRS_partial (ops : List Op) (out : List Bool) (s : LIRS.State) (ho : ∀ op ∈ ops, Calls looks (Third (LIRS_limits cs hl) sz) op)
    (hreach : Reaches LIRS.algo (LIRS.init cs hl 0 adm strict) ops out s) (r : Req) (hr : Third (LIRS_limits cs hl) sz r)
    (hout : r.id ∉ (LIRS_cached s).ids) (ha : LIRS_admits cs hl s r = false) :
    ∃ s', LIRS.algo.get s r = .ok (false, s') ∧ (LIRS_cached s').Perm (LIRS_cached s) := by
  obtain ⟨b, s', vs, kept, e, hp, _, _, hno⟩ := C06_evictOnDemand_LIRS_partial sz cs hl adm strict h2 ops out s ho hreach r hr
  have hb : b = false := by
    obtain ⟨_, _, h3⟩ := C03_hitIffCached_LIRS_partial sz cs hl adm strict h2 ops out s ho hreach
    obtain ⟨s2, e2⟩ := h3 r hr
    rw [e] at e2
    injection e2 with e2; injection e2 with e2
    rw [e2]; exact decide_eq_false hout
  subst hb
  obtain ⟨hv, hq⟩ := hno rfl ha
  subst hv
  exact ⟨s', e, hq.trans (List.Perm.symm hp)⟩

theorem C09_safe_LIRS_partial : Safe LIRS.algo (LIRS.init cs hl 0 adm strict) (Calls looks (Third (LIRS_limits cs hl) sz)) := by
  intro ops ho
  obtain ⟨s, e, _⟩ := C83_lirs_LIRS_partial sz cs hl adm strict h2 ops ho
  exact ⟨_, s, e⟩

end

/-- The model's `get` is `cache_get_base` followed by `limitStack`, for every state between two calls. -/
theorem C83_get_LIRS (s : LIRS.State) (r : Req) (hf : s.fail = none) (hg : s.inGet = false) :
    LIRS.algo.get s r = LIRS.plain.get s r >>= fun p => LIRS.limitStack p.2 >>= fun s' => .ok (p.1, s') := LIRS.get_eq s r hf hg

/-! ### Instances -/

example : LIRS_demo.fail = none ∧ LIRS_demo.inGet = false := by decide +kernel
/-- a miss of an object the stack remembers -/
example : LIRS.algo.get LIRS_demo ⟨5, 2, -2⟩ = .ok (false, stOf LIRS_demo (LIRS.algo.get LIRS_demo ⟨5, 2, -2⟩)) := res_ok LIRS_demo (by decide +kernel)
example : (Spec.LIRS.run (LIRS_limits 12 6) {} LIRS_ops).1 = [false, false, false, false, false, false, false, false, false, true, false, true, true] := by decide +kernel
example : LIRS.algo.occ LIRS_demo ≤ 12 := C01_capacity_LIRS_partial LIRS_sz 12 6 .none false (by decide) LIRS_ops _ LIRS_demo LIRS_demo_calls LIRS_demo_reached.1
example : ∃ s', LIRS.algo.get LIRS_demo ⟨10, 1, -2⟩ = .ok (false, s') ∧ (10, 1) ∈ LIRS_cached s' :=
  C05_admittedMissCached_LIRS_partial LIRS_sz 12 6 .none false (by decide) LIRS_ops _ LIRS_demo LIRS_demo_calls LIRS_demo_reached.1 ⟨10, 1, -2⟩
    (show Third (LIRS_limits 12 6) LIRS_sz ⟨10, 1, -2⟩ by simp [Third, LIRS_sz, u32]) (by decide +kernel) (by decide +kernel)
example : ∃ s', LIRS.algo.remove LIRS_demo 3 = .ok (true, s') ∧ (LIRS_cached s').Perm [(7, 2), (4, 1), (8, 1), (2, 2), (1, 2)] := by
  obtain ⟨s', e, hp⟩ := C07_remove_LIRS_partial LIRS_sz 12 6 .none (by decide) LIRS_ops _ LIRS_demo LIRS_demo_calls LIRS_demo_reached.1 (by decide +kernel) 3
  refine ⟨s', ?_, ?_⟩
  · rw [e, decide_eq_true (show _ from by decide +kernel)]
  · rw [show (LIRS_cached LIRS_demo).filter (fun x => x.1 ≠ 3) = [(7, 2), (4, 1), (8, 1), (2, 2), (1, 2)] by decide +kernel] at hp
    exact hp
example : ∃ b s', LIRS.algo.get LIRS_demo ⟨5, 2, -2⟩ = .ok (b, s') ∧ ((LIRS_lists s').stack.map (·.size)).sum ≤ 2 * 12 :=
  C83_stackBounded_LIRS_partial LIRS_sz 12 6 .none false (by decide) LIRS_ops _ LIRS_demo LIRS_demo_calls LIRS_demo_reached.1 ⟨5, 2, -2⟩
    (show Third (LIRS_limits 12 6) LIRS_sz ⟨5, 2, -2⟩ by simp [Third, LIRS_sz, u32])

/-! ### What fails outside the bounds -/

/-- In a cache of four objects the queue has room for one (as the C code chooses); a few requests for objects of size one make LIRS read freed memory. -/
theorem C09_smallQueue_LIRS_fails : ∃ ops : List Op, (∀ op ∈ ops, Calls looks (fun r => r.size = 1) op) ∧
    LIRS.algo.run (LIRS_x0 4 1) ops = .error .useAfterFree :=
  ⟨LIRS_gets [(2, 1), (3, 1), (5, 1), (1, 1), (1, 1), (2, 1)], by simp [LIRS_gets, Calls], res_err (by decide +kernel)⟩

/-- With object metadata considered the loop that makes room never ends: it asks for less than the cache is short of. -/
theorem C09_metadata_LIRS_fails : ∃ ops : List Op, (∀ op ∈ ops, Calls looks (fun r => r.size = 1) op) ∧
    LIRS.algo.run (LIRS.init 1000 10 (LIRS.mdSize true) .none false) ops = .error .diverge :=
  ⟨LIRS_gets ((List.range 60).map (fun i => (i, 1))), by simp [LIRS_gets, Calls], res_err (by decide +kernel)⟩

/-- `find` without update may read freed memory. -/
theorem C09_peekCrashes_LIRS_fails : ∃ ops : List Op, (∀ op ∈ ops, Calls { upd := false, rem := false, ev := false, ins := false } (Third (LIRS_limits 6 3) (fun _ => 1)) op) ∧
    LIRS.algo.run (LIRS_x0 6 3) ops = .error .useAfterFree :=
  ⟨LIRS_gets [(8, 1), (5, 1), (4, 1), (7, 1), (8, 1), (4, 1)] ++ [.find ⟨7, 1, -2⟩ false], by simp [LIRS_gets, Calls, Third, u32], res_err (by decide +kernel)⟩

/-- `find` without update changes the cache: here object 4 becomes hot and object 1 cold. -/
theorem C03_peekDisturbs_LIRS_fails : ∃ (ops : List Op) (s s' : LIRS.State) (r : Req) (out : List Bool),
    (∀ op ∈ ops, Calls looks (Third (LIRS_limits 12 6) LIRS_sz) op) ∧ Reaches LIRS.algo (LIRS_x0 12 6) ops out s ∧ LIRS.algo.find s r false = .ok (true, s') ∧
    hotOf (LIRS_lists s').stack ≠ hotOf (LIRS_lists s).stack ∧ (4 : ObjId) ∈ (hotOf (LIRS_lists s').stack).ids ∧ (1 : ObjId) ∉ (hotOf (LIRS_lists s').stack).ids := by
  refine ⟨LIRS_gets [(1, 2), (2, 2), (3, 2), (4, 1), (5, 2)], after LIRS.algo (LIRS_x0 12 6) (LIRS_gets [(1, 2), (2, 2), (3, 2), (4, 1), (5, 2)]),
    stOf (LIRS_x0 12 6) (LIRS.algo.find (after LIRS.algo (LIRS_x0 12 6) (LIRS_gets [(1, 2), (2, 2), (3, 2), (4, 1), (5, 2)])) ⟨4, 1, -2⟩ false), ⟨4, 1, -2⟩,
    [false, false, false, false, false], ?_, reaches_after (by decide +kernel), res_ok (LIRS_x0 12 6) (by decide +kernel), ?_, ?_, ?_⟩
  · simp [LIRS_gets, Calls, Third, LIRS_sz, u32]
  all_goals decide +kernel

/-- A hit evicts an object although everything was cached before. -/
theorem C06_hitEvicts_LIRS_fails : ∃ (ops : List Op) (out : List Bool) (s s' : LIRS.State) (r : Req),
    (∀ op ∈ ops, Calls looks (Third (LIRS_limits 6 3) (fun _ => 1)) op) ∧ Reaches LIRS.algo (LIRS_x0 6 3) ops out s ∧ r.size = 1 ∧
    LIRS.algo.get s r = .ok (true, s') ∧ (LIRS_cached s').length + 1 = (LIRS_cached s).length := by
  refine ⟨LIRS_gets [(4, 1), (9, 1), (2, 1), (3, 1), (8, 1), (8, 1), (1, 1)], [false, false, false, false, false, true, false],
    after LIRS.algo (LIRS_x0 6 3) (LIRS_gets [(4, 1), (9, 1), (2, 1), (3, 1), (8, 1), (8, 1), (1, 1)]),
    stOf (LIRS_x0 6 3) (LIRS.algo.get (after LIRS.algo (LIRS_x0 6 3) (LIRS_gets [(4, 1), (9, 1), (2, 1), (3, 1), (8, 1), (8, 1), (1, 1)])) ⟨4, 1, -2⟩), ⟨4, 1, -2⟩,
    ?_, reaches_after (by decide +kernel), rfl, res_ok (LIRS_x0 6 3) (by decide +kernel), by decide +kernel⟩
  simp [LIRS_gets, Calls, Third, u32]

/-- `remove` reads the objects it has just freed. -/
theorem C09_removeReadsFreed_LIRS_fails : ∃ ops : List Op, (∀ op ∈ ops, Calls { looks with rem := true } (Third (LIRS_limits 6 3) (fun _ => 1)) op) ∧
    LIRS.algo.run (LIRS.init 6 3 0 .none true) ops = .error .useAfterFree :=
  ⟨LIRS_gets [(1, 1)] ++ [.remove 1], by simp [LIRS_gets, Calls, Third, looks, u32], res_err (by decide +kernel)⟩

/-- Even if these reads do no harm, after some removals the queue is corrupt: an object is unlinked from a list it is not on. -/
theorem C09_removeCrashes_LIRS_fails : ∃ ops : List Op, (∀ op ∈ ops, Calls { looks with rem := true } (Third (LIRS_limits 6 3) (fun _ => 1)) op) ∧
    LIRS.algo.run (LIRS_x0 6 3) ops = .error .notLinked :=
  ⟨LIRS_gets [(3, 1), (4, 1), (7, 1), (4, 1), (8, 1), (7, 1)] ++ [.remove 3, .remove 7, .remove 4] ++ LIRS_gets [(7, 1), (5, 1), (4, 1), (3, 1), (1, 1), (1, 1)],
    by simp [LIRS_gets, Calls, Third, looks, u32], res_err (by decide +kernel)⟩

/-- `remove` says it has removed an object that was not cached. -/
theorem C07_removesGhost_LIRS_fails : ∃ (ops : List Op) (out : List Bool) (s s' : LIRS.State) (id : ObjId),
    (∀ op ∈ ops, Calls looks (Third (LIRS_limits 12 6) LIRS_sz) op) ∧ Reaches LIRS.algo (LIRS_x0 12 6) ops out s ∧ id ∉ (LIRS_cached s).ids ∧
    LIRS.algo.remove s id = .ok (true, s') :=
  ⟨LIRS_ops, _, LIRS_demo, stOf LIRS_demo (LIRS.algo.remove LIRS_demo 5), 5, LIRS_demo_calls, LIRS_demo_reached.1, by decide +kernel, res_ok LIRS_demo (by decide +kernel)⟩

/-- `evict` on a cache that is not empty may evict nothing. -/
theorem C06_evictEvictsNothing_LIRS_fails : ∃ (ops : List Op) (out : List Bool) (s s' : LIRS.State) (r : Req),
    (∀ op ∈ ops, Calls looks (Third (LIRS_limits 12 6) LIRS_sz) op) ∧ Reaches LIRS.algo (LIRS_x0 12 6) ops out s ∧
    LIRS.algo.evict s r = .ok s' ∧ LIRS_cached s ≠ [] ∧ LIRS_cached s' = LIRS_cached s :=
  ⟨[.get ⟨1, 2, -2⟩], [false], after LIRS.algo (LIRS_x0 12 6) [.get ⟨1, 2, -2⟩], after LIRS.algo (LIRS_x0 12 6) [.get ⟨1, 2, -2⟩], ⟨2, 2, -2⟩,
    by simp [Calls, Third, LIRS_sz, u32], reaches_after (by decide +kernel), rfl, by decide +kernel, rfl⟩

end Verif.Props
