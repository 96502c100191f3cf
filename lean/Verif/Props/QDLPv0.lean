import Verif.Proof.QDLPv0Run
import Verif.Spec.Multi
import Verif.Props.LeCaR
/-!
# Properties of QDLPv0 (libCacheSim/cache/eviction/priv/QDLPv0.c)

The statements are those of `Verif/Spec/Cache.lean` and `Verif/Spec/Multi.lean`.  They hold for every cache size `cs`, every size `fs ≤ cs` of the FIFO queue,
every metadata size `md`, every admission policy and every sequence of `get`, `find` and `evict` calls.  The theorems named `_fails` show what goes wrong with
`remove` and `insert` calls and for `fs > cs`.
-/

namespace Verif.Props
open Verif Verif.Spec
set_option linter.unusedVariables false
set_option maxRecDepth 20000

/-- what QDLPv0 has cached: the objects of the FIFO queue and of the main queue -/
abbrev QDLPv0_cached (s : QDLPv0.State) : Contents := QDLPv0.cached s

/-- the three queues, as `Verif/Spec/QuickDemotion.lean` has them: the FIFO queue newest first with the hits of its objects, the main queue from the hand on, the ghosts newest first -/
abbrev QDLPv0_queues (s : QDLPv0.State) : QuickDemotion.Queues := QDLPv0.queues s

/-- a demo run: hits in both queues, a ghost hit, promotions, evictions from both queues, a too large object, an `evict` call -/
def QDLPv0_ops : List Op := [.get ⟨1, 2, -2⟩, .get ⟨1, 2, -2⟩, .get ⟨2, 3, -2⟩, .get ⟨3, 4, -2⟩, .find ⟨3, 4, -2⟩ false, .get ⟨4, 3, -2⟩, .get ⟨7, 30, -2⟩,
  .get ⟨2, 3, -2⟩, .find ⟨4, 3, -2⟩ true, .get ⟨2, 3, -2⟩, .get ⟨5, 2, -2⟩, .get ⟨6, 2, -2⟩, .evict ⟨0, 0, -2⟩, .get ⟨8, 1, -2⟩]

def QDLPv0_demo : QDLPv0.State := after QDLPv0.algo (QDLPv0.init 10 0 3 .none) QDLPv0_ops

theorem QDLPv0_demo_reached : Reaches QDLPv0.algo (QDLPv0.init 10 0 3 .none) QDLPv0_ops
    [false, true, false, false, true, false, false, false, true, true, false, false, true, false] QDLPv0_demo ∧
    QDLPv0_queues QDLPv0_demo = ⟨[⟨8, 1, 0⟩, ⟨6, 2, 0⟩], ⟨[], [⟨2, 3, 1⟩, ⟨4, 3, 0⟩]⟩, [(5, 2), (3, 4)]⟩ :=
  ⟨reaches_after (by decide +kernel), by decide +kernel⟩

theorem QDLPv0_demo_calls : ∀ op ∈ QDLPv0_ops, Calls getFindEvict (SizeOk 0) op := by
  intro op hop
  simp only [QDLPv0_ops, List.mem_cons, List.not_mem_nil, or_false] at hop
  rcases hop with rfl | rfl | rfl | rfl | rfl | rfl | rfl | rfl | rfl | rfl | rfl | rfl | rfl | rfl <;> simp [Calls, SizeOk, u32, getFindEvict]

theorem C01_capacity_QDLPv0_partial (cs md fs : Nat) (hf : fs ≤ cs) (adm : Adm) :
    Capacity QDLPv0.algo (QDLPv0.init cs md fs adm) (Calls getFindEvict (SizeOk md)) cs :=
  (QDLPv0.contract ⟨cs, md, fs⟩).capacity (QDLPv0.inv_init cs md fs hf adm)

example : QDLPv0.algo.occ QDLPv0_demo = 9 := by decide +kernel

theorem C02_accounting_QDLPv0_partial (cs md fs : Nat) (hf : fs ≤ cs) (adm : Adm) :
    Accounting QDLPv0.algo QDLPv0_cached (QDLPv0.init cs md fs adm) (Calls getFindEvict (SizeOk md)) md :=
  (QDLPv0.contract ⟨cs, md, fs⟩).accounting (QDLPv0.inv_init cs md fs hf adm)

example : QDLPv0.algo.nObj QDLPv0_demo = 4 := by decide +kernel

theorem C03_hitIffCached_QDLPv0_partial (cs md fs : Nat) (hf : fs ≤ cs) (adm : Adm) :
    HitIffCached QDLPv0.algo QDLPv0_cached (QDLPv0.init cs md fs adm) (Calls getFindEvict (SizeOk md)) :=
  (QDLPv0.contract ⟨cs, md, fs⟩).hitIffCached (QDLPv0.inv_init cs md fs hf adm)

/-- a cached object, a ghost and a stranger -/
example : 4 ∈ (QDLPv0_cached QDLPv0_demo).ids ∧ 5 ∉ (QDLPv0_cached QDLPv0_demo).ids ∧ 9 ∉ (QDLPv0_cached QDLPv0_demo).ids := by decide +kernel

theorem C04_noPhantom_QDLPv0_partial (cs md fs : Nat) (hf : fs ≤ cs) (adm : Adm) :
    NoPhantom QDLPv0.algo QDLPv0_cached (QDLPv0.init cs md fs adm) (Calls getFindEvict (SizeOk md)) :=
  (QDLPv0.contract ⟨cs, md, fs⟩).noPhantom (QDLPv0.inv_init cs md fs hf adm) rfl (fun h => by cases h)

theorem C04_addsOnlyRequested_QDLPv0_partial (cs md fs : Nat) (hf : fs ≤ cs) (adm : Adm) :
    AddsOnlyRequested QDLPv0.algo QDLPv0_cached (QDLPv0.init cs md fs adm) (Calls getFindEvict (SizeOk md)) :=
  (QDLPv0.contract ⟨cs, md, fs⟩).addsOnlyRequested (QDLPv0.inv_init cs md fs hf adm)

/-- C04 fails with client inserts: `insert` does not look for a ghost, so object 2 is in the FIFO queue and among the ghosts at once. -/
theorem C04_insertGhost_fails_QDLPv0 : ∃ out s, Reaches QDLPv0.algo (QDLPv0.init 10 0 3 .none)
    [.get ⟨1, 4, -2⟩, .get ⟨2, 4, -2⟩, .get ⟨3, 4, -2⟩, .evict ⟨0, 0, -2⟩, .insert ⟨2, 4, -2⟩] out s ∧ 2 ∈ s.fifo ∧ 2 ∈ s.ghost :=
  ⟨_, _, reaches_after (out := [false, false, false, true, true]) (by decide +kernel), by decide +kernel, by decide +kernel⟩

/-- C05: every missed object that is admitted is cached afterwards, in the main queue if it was a ghost, else in the FIFO queue. -/
theorem C05_admittedMissCached_QDLPv0_partial (cs md fs : Nat) (hf : fs ≤ cs) (adm : Adm) :
    AdmittedMissCached QDLPv0.algo QDLPv0_cached (fun s r => admitsBase s.base r) (QDLPv0.init cs md fs adm) (Calls getFindEvict (SizeOk md)) := by
  intro ops out s ho hr r hok hn ha
  have hi := (QDLPv0.contract ⟨cs, md, fs⟩).reach (QDLPv0.inv_init cs md fs hf adm) ho hr
  obtain ⟨s', kept, k1, _, k3, _⟩ := hi.admitted r hok hn ha
  exact ⟨s', k1, k3.symm.subset List.mem_cons_self⟩

example : 9 ∉ (QDLPv0_cached QDLPv0_demo).ids ∧ admitsBase QDLPv0_demo.base ⟨9, 6, -2⟩ = true := by decide +kernel

/-- What is proved of C06: a hit evicts nothing, and a miss evicts nothing if the object fits as it is.  One eviction may evict several objects, or none. -/
theorem C06_evictIfNeeded_QDLPv0_partial (cs md fs : Nat) (hf : fs ≤ cs) (adm : Adm) :
    EvictIfNeeded QDLPv0.algo QDLPv0_cached (QDLPv0.init cs md fs adm) (Calls getFindEvict (SizeOk md)) cs md := by
  intro ops out s ho hr r b s' hok hg
  have C := QDLPv0.contract ⟨cs, md, fs⟩
  have hi := C.reach (QDLPv0.inv_init cs md fs hf adm) ho hr
  by_cases hin : r.id ∈ (QDLPv0_cached s).ids
  · obtain ⟨h, hb⟩ := hi.abs
    obtain ⟨s1, k1, k2, _⟩ := h.bump.find_hit r ((h.mem_cached _).1 hin)
    rw [get_hit k1] at hg
    cases hg
    refine ⟨fun _ => k2.cached.trans ?_, by simp⟩
    rw [QDLPv0.hit_contents]; exact h.cached.symm
  · cases ha : admitsBase s.base r with
    | true =>
      obtain ⟨s1, kept, k1, k2, k3, k4⟩ := hi.admitted r hok hin ha
      rw [k1] at hg; cases hg
      refine ⟨by simp, fun _ => ?_⟩
      by_cases hfit : bytes md (QDLPv0_cached s) + (r.size + md) ≤ cs
      · exact ⟨[], kept, (k4 hfit).symm, Or.inr k3, by simp⟩
      · obtain ⟨l, hl1, hl2⟩ := k2
        obtain ⟨vs, hv⟩ := hl2.exists_perm_append
        exact ⟨vs, kept, (hv.trans List.perm_append_comm).trans (hl1.append_left _), Or.inr k3, fun _ => by omega⟩
    | false =>
      obtain ⟨s1, k1, _, k3⟩ := hi.rejected r hok hin ha
      rw [k1] at hg; cases hg
      exact ⟨by simp, fun _ => ⟨[], QDLPv0_cached s, List.Perm.refl _, Or.inl k3, by simp⟩⟩

/-- An `evict` call may evict nothing: it moves object 1, which was requested twice, to the main queue. -/
theorem C06_evictsOne_fails_QDLPv0 : ¬ EvictsOne QDLPv0.algo QDLPv0_cached (QDLPv0.init 10 0 3 .none) (Calls getFindEvict (SizeOk 0)) := by
  intro h
  obtain ⟨v, s', h1, h2⟩ := h [.get ⟨1, 2, -2⟩, .get ⟨1, 2, -2⟩] _ _ (by simp [Calls, SizeOk, u32]) (reaches_after (out := [false, true]) (by decide +kernel))
    (by decide +kernel) ⟨0, 0, -2⟩
  have hs : (QDLPv0.algo.evict (after QDLPv0.algo (QDLPv0.init 10 0 3 .none) [.get ⟨1, 2, -2⟩, .get ⟨1, 2, -2⟩]) ⟨0, 0, -2⟩).map (fun s => (QDLPv0_cached s).length) = .ok 1 := by
    decide +kernel
  rw [h1] at hs
  have e := h2.length_eq
  rw [show (QDLPv0_cached (after QDLPv0.algo (QDLPv0.init 10 0 3 .none) [.get ⟨1, 2, -2⟩, .get ⟨1, 2, -2⟩])).length = 1 from by decide +kernel] at e
  have hs' : (QDLPv0_cached s').length = 1 := Except.ok.inj hs
  rw [List.length_cons, hs'] at e
  omega

/-- What is proved of C07: after `get`, `find` and `evict` calls, `remove` removes exactly the object.  Its answer is also `true` for a ghost. -/
theorem C07_removeExact_QDLPv0_partial (cs md fs : Nat) (hf : fs ≤ cs) (adm : Adm) (ops : List Op) (out : List Bool) (s : QDLPv0.State)
    (ho : ∀ op ∈ ops, Calls getFindEvict (SizeOk md) op) (hr : Reaches QDLPv0.algo (QDLPv0.init cs md fs adm) ops out s) (id : ObjId) :
    ∃ s', QDLPv0.algo.remove s id = .ok (decide (id ∈ (QDLPv0_cached s).ids ∨ id ∈ (QDLPv0_queues s).ghosts.ids), s') ∧
      (QDLPv0_cached s').Perm ((QDLPv0_cached s).filter (fun x => x.1 ≠ id)) := by
  have hi := (QDLPv0.contract ⟨cs, md, fs⟩).reach (QDLPv0.inv_init cs md fs hf adm) ho hr
  obtain ⟨h, hb⟩ := hi.abs
  obtain ⟨s', k1, k2⟩ := h.remove id
  refine ⟨s', ?_, k2⟩
  show QDLPv0.remove s id = _
  rw [k1]
  congr 2
  rw [decide_eq_decide, h.mem_cached]

/-- C07 fails for the answer: removing a ghost answers `true`. -/
theorem C07_removeExact_fails_QDLPv0 : ∃ s', 5 ∉ (QDLPv0_cached QDLPv0_demo).ids ∧ QDLPv0.algo.remove QDLPv0_demo 5 = .ok (true, s') :=
  ⟨stOf QDLPv0_demo (QDLPv0.algo.remove QDLPv0_demo 5), by decide +kernel, res_ok QDLPv0_demo (by decide +kernel)⟩

/-- C08: a request that is not admitted leaves the FIFO queue and the main queue with its hand unchanged, order and counters included.  It forgets the ghost of the object. -/
theorem C08_rejectQuiet_QDLPv0_partial (cs md fs : Nat) (hf : fs ≤ cs) (adm : Adm) :
    RejectQuiet QDLPv0.algo QDLPv0_cached (fun s r => admitsBase s.base r) (fun s => ((QDLPv0_queues s).fifo, (QDLPv0_queues s).main)) (QDLPv0.init cs md fs adm)
      (Calls getFindEvict (SizeOk md)) := by
  intro ops out s ho hr r hok hn ha
  have hi := (QDLPv0.contract ⟨cs, md, fs⟩).reach (QDLPv0.inv_init cs md fs hf adm) ho hr
  obtain ⟨s', k1, k2, _⟩ := hi.rejected r hok hn ha
  exact ⟨s', k1, by simp only [k2]⟩

example : 9 ∉ (QDLPv0_cached QDLPv0_demo).ids ∧ admitsBase QDLPv0_demo.base ⟨9, 11, -2⟩ = false := by decide +kernel

/-- Without client `remove` and `insert` calls. -/
theorem C09_safe_QDLPv0_partial (cs md fs : Nat) (hf : fs ≤ cs) (adm : Adm) :
    Safe QDLPv0.algo (QDLPv0.init cs md fs adm) (Calls getFindEvict (SizeOk md)) :=
  (QDLPv0.contract ⟨cs, md, fs⟩).safe (QDLPv0.inv_init cs md fs hf adm)

/-- a run that leaves the hand in the middle of the main queue -/
def QDLPv0_handOps : List Op := [.get ⟨1, 1, -2⟩, .get ⟨1, 1, -2⟩, .get ⟨2, 1, -2⟩, .get ⟨2, 1, -2⟩, .get ⟨3, 1, -2⟩, .get ⟨3, 1, -2⟩, .get ⟨4, 1, -2⟩, .get ⟨4, 1, -2⟩,
  .get ⟨5, 1, -2⟩, .get ⟨5, 1, -2⟩, .get ⟨6, 1, -2⟩, .get ⟨7, 1, -2⟩, .get ⟨2, 1, -2⟩, .get ⟨8, 1, -2⟩, .get ⟨6, 1, -2⟩, .get ⟨7, 1, -2⟩]

/-- the hand passed object 2 and points to object 4 -/
example : answers QDLPv0.algo (QDLPv0.init 6 0 1 .none) QDLPv0_handOps =
    some [false, true, false, true, false, true, false, true, false, true, false, false, true, false, false, false] ∧
    QDLPv0_queues (after QDLPv0.algo (QDLPv0.init 6 0 1 .none) QDLPv0_handOps) =
      ⟨[⟨8, 1, 0⟩], ⟨[⟨2, 1, 0⟩], [⟨4, 1, 0⟩, ⟨5, 1, 0⟩, ⟨6, 1, 0⟩, ⟨7, 1, 0⟩]⟩, []⟩ := by decide +kernel

/-- C09 fails with `remove`: the object under the hand is removed and freed, the next eviction from the main queue reads it. -/
theorem C09_removeUnderHand_fails_QDLPv0 : QDLPv0.algo.run (QDLPv0.init 6 0 1 .none) (QDLPv0_handOps ++ [.remove 4, .evict ⟨0, 0, -2⟩]) = .error .useAfterFree :=
  res_err (by decide +kernel)

/-- C09 fails when the FIFO queue gets more than the whole cache (`fifo-ratio` above 1 is accepted): the first object promoted crashes the program. -/
theorem C09_largeFifo_fails_QDLPv0 : QDLPv0.algo.run (QDLPv0.init 4 0 5 .none) [.get ⟨1, 2, -2⟩, .get ⟨1, 2, -2⟩, .get ⟨2, 3, -2⟩] = .error .nullDeref :=
  res_err (by decide +kernel)

/-- What is proved of C10: if the next eviction is from the FIFO queue and its oldest object had no hit, `to_evict` names the object that is evicted. -/
theorem C10_toEvict_QDLPv0_partial (cs md fs : Nat) (hf : fs ≤ cs) (adm : Adm) (ops : List Op) (out : List Bool) (s : QDLPv0.State)
    (ho : ∀ op ∈ ops, Calls getFindEvict (SizeOk md) op) (hr : Reaches QDLPv0.algo (QDLPv0.init cs md fs adm) ops out s)
    (hb : bytes md ((QDLPv0_queues s).fifo.map Item.entry) > fs ∨ sieve.contents (QDLPv0_queues s).main = []) (l : List Item) (x : Item)
    (hx : (QDLPv0_queues s).fifo = l ++ [x]) (hc : x.cnt = 0) (r : Req) :
    QDLPv0.toEvict s = .ok x.id ∧ ∃ s', QDLPv0.algo.evict s r = .ok s' ∧ (QDLPv0_cached s).Perm (x.entry :: QDLPv0_cached s') := by
  have hi := (QDLPv0.contract ⟨cs, md, fs⟩).reach (QDLPv0.inv_init cs md fs hf adm) ho hr
  obtain ⟨h, hbd⟩ := hi.abs
  have hl : (QDLPv0_queues s).fifo.getLast? = some x := by rw [hx]; simp
  refine ⟨?_, ?_⟩
  · have e : s.fifo = l.map Item.id ++ [x.id] := by rw [h.qf, hx]; simp [QDLPv0.ids]
    simp only [QDLPv0.toEvict, e, List.getLast?_append, List.getLast?_singleton, Option.some_or]
  · have hne : (QDLPv0_queues s).contents ≠ [] := by simp [QuickDemotion.Queues.contents, hx]
    obtain ⟨s', k1, k2, _⟩ := h.evict hne
    have e : QuickDemotion.evict ⟨cs, md, fs⟩ (QDLPv0_queues s) =
      { (QDLPv0_queues s) with fifo := (QDLPv0_queues s).fifo.dropLast, ghosts := QuickDemotion.newestWithin md (QuickDemotion.Sizes.main ⟨cs, md, fs⟩) (x.entry :: (QDLPv0_queues s).ghosts) } := by
      rw [QuickDemotion.evict, if_pos hb, hl]
      simp only [hc, if_true]
    rw [e] at k2
    refine ⟨s', k1, h.cached.trans (List.Perm.trans ?_ (k2.cached.symm.cons _))⟩
    simp only [QuickDemotion.Queues.contents, hx, List.dropLast_concat, List.map_append, List.map_cons, List.map_nil, List.append_assoc]
    exact List.perm_middle

/-- C10 fails in general: with an object in the main queue and the FIFO queue within its share, `to_evict` still names the oldest object of the FIFO queue. -/
theorem C10_toEvict_fails_QDLPv0 : QDLPv0.toEvict QDLPv0_demo = .ok 6 ∧
    (QDLPv0.algo.evict QDLPv0_demo ⟨0, 0, -2⟩).map (fun s => decide (6 ∈ (QDLPv0_cached s).ids)) = .ok true ∧
    (QDLPv0.algo.evict QDLPv0_demo ⟨0, 0, -2⟩).map (fun s => decide (4 ∈ (QDLPv0_cached s).ids)) = .ok false := by
  refine ⟨?_, ?_, ?_⟩ <;> decide +kernel

/-- and with an empty FIFO queue it is an assertion failure, though the cache holds an object -/
theorem C10_emptyFifo_fails_QDLPv0 : ∃ out s, Reaches QDLPv0.algo (QDLPv0.init 10 0 3 .none) [.get ⟨1, 2, -2⟩, .get ⟨1, 2, -2⟩, .evict ⟨0, 0, -2⟩] out s ∧
    QDLPv0_cached s = [(1, 2)] ∧ QDLPv0.toEvict s = .error .assertFail :=
  ⟨_, _, reaches_after (out := [false, true, true]) (by decide +kernel), by decide +kernel, by decide +kernel⟩

/-! ## C91: quick demotion, lazy promotion -/

/-- C91.  A trace is served as by the cache of `Verif/Spec/QuickDemotion.lean`: same answers, and the same three queues at the end. -/
theorem C91_follows_QDLPv0 (cs md fs : Nat) (hf : fs ≤ cs) (adm : Adm) (rs : List Req) (hr : ∀ r ∈ rs, SizeOk md r) :
    ∃ s, QDLPv0.algo.gets (QDLPv0.init cs md fs adm) rs = .ok ((QuickDemotion.gets ⟨cs, md, fs⟩ (⟨[], ⟨[], []⟩, []⟩, adm) rs).1, s) ∧
      QDLPv0_queues s = (QuickDemotion.gets ⟨cs, md, fs⟩ (⟨[], ⟨[], []⟩, []⟩, adm) rs).2.1 := by
  obtain ⟨h, hb⟩ := QDLPv0.abs_init cs md fs hf adm
  obtain ⟨s, k1, k2⟩ := QDLPv0.Abs.gets rs (⟨[], ⟨[], []⟩, []⟩, adm) _ h hb rfl hr
  exact ⟨s, k1, k2.queues⟩

/-- the specification on a short trace: objects 1 and 2 requested twice are promoted, object 3 becomes a ghost and then enters the main queue -/
example : QuickDemotion.gets ⟨4, 0, 1⟩ (⟨[], ⟨[], []⟩, []⟩, .none) [⟨1, 1, -2⟩, ⟨1, 1, -2⟩, ⟨2, 1, -2⟩, ⟨2, 1, -2⟩, ⟨3, 1, -2⟩, ⟨4, 1, -2⟩, ⟨5, 1, -2⟩, ⟨6, 1, -2⟩, ⟨3, 1, -2⟩] =
    ([false, true, false, true, false, false, false, false, false],
      (⟨[⟨6, 1, 0⟩], ⟨[], [⟨1, 1, 0⟩, ⟨2, 1, 0⟩, ⟨3, 1, 0⟩]⟩, [(5, 1), (4, 1)]⟩, .none)) := by decide +kernel

/-- The same for one `get` in every state reached by `get`, `find` and `evict` calls, -/
theorem C91_get_QDLPv0_partial (cs md fs : Nat) (hf : fs ≤ cs) (adm : Adm) (ops : List Op) (out : List Bool) (s : QDLPv0.State)
    (ho : ∀ op ∈ ops, Calls getFindEvict (SizeOk md) op) (hr : Reaches QDLPv0.algo (QDLPv0.init cs md fs adm) ops out s) (r : Req) (hok : SizeOk md r) :
    ∃ s', QDLPv0.algo.get s r = .ok ((QuickDemotion.get ⟨cs, md, fs⟩ (QDLPv0_queues s, s.base.adm) r).1, s') ∧
      (QDLPv0_queues s', s'.base.adm) = (QuickDemotion.get ⟨cs, md, fs⟩ (QDLPv0_queues s, s.base.adm) r).2 := by
  have hi := (QDLPv0.contract ⟨cs, md, fs⟩).reach (QDLPv0.inv_init cs md fs hf adm) ho hr
  obtain ⟨h, hb⟩ := hi.abs
  obtain ⟨s', k1, k2, k3, k4⟩ := h.get hb r hok
  exact ⟨s', k1, by rw [show QDLPv0_queues s' = _ from k2.queues, k4]⟩

/-- for one `evict` call, -/
theorem C91_evict_QDLPv0_partial (cs md fs : Nat) (hf : fs ≤ cs) (adm : Adm) (ops : List Op) (out : List Bool) (s : QDLPv0.State)
    (ho : ∀ op ∈ ops, Calls getFindEvict (SizeOk md) op) (hr : Reaches QDLPv0.algo (QDLPv0.init cs md fs adm) ops out s) (hne : QDLPv0_cached s ≠ []) (r : Req) :
    ∃ s', QDLPv0.algo.evict s r = .ok s' ∧ QDLPv0_queues s' = QuickDemotion.evict ⟨cs, md, fs⟩ (QDLPv0_queues s) := by
  have hi := (QDLPv0.contract ⟨cs, md, fs⟩).reach (QDLPv0.inv_init cs md fs hf adm) ho hr
  obtain ⟨h, hb⟩ := hi.abs
  have hne' : (QDLPv0_queues s).contents ≠ [] := by
    intro e; apply hne
    have := h.cached; rw [show (QDLPv0.queues s).contents = [] from e] at this; exact this.eq_nil
  obtain ⟨s', k1, k2, _⟩ := h.evict hne'
  exact ⟨s', k1, k2.queues⟩

/-- and for one `find`: without update it changes nothing; with update it counts a hit or forgets a ghost. -/
theorem C91_find_QDLPv0_partial (cs md fs : Nat) (hf : fs ≤ cs) (adm : Adm) (ops : List Op) (out : List Bool) (s : QDLPv0.State)
    (ho : ∀ op ∈ ops, Calls getFindEvict (SizeOk md) op) (hr : Reaches QDLPv0.algo (QDLPv0.init cs md fs adm) ops out s) (r : Req) :
    QDLPv0.algo.find s r false = .ok (decide (r.id ∈ (QDLPv0_cached s).ids), s) ∧
    ∃ s', QDLPv0.algo.find s r true = .ok (decide (r.id ∈ (QDLPv0_cached s).ids), s') ∧
      QDLPv0_queues s' = if r.id ∈ (QDLPv0_cached s).ids then QuickDemotion.hit (QDLPv0_queues s) r
        else { QDLPv0_queues s with ghosts := (QDLPv0_queues s).ghosts.filter (fun x => x.1 ≠ r.id) } := by
  have C := QDLPv0.contract ⟨cs, md, fs⟩
  have hi := C.reach (QDLPv0.inv_init cs md fs hf adm) ho hr
  obtain ⟨h, hb⟩ := hi.abs
  refine ⟨C.findF (Or.inl rfl) _ hi, ?_⟩
  by_cases hin : r.id ∈ (QDLPv0_cached s).ids
  · obtain ⟨s', k1, k2, _⟩ := h.find_hit r ((h.mem_cached _).1 hin)
    exact ⟨s', by rw [decide_eq_true hin]; exact k1, by rw [if_pos hin]; exact k2.queues⟩
  · obtain ⟨s', k1, k2, _⟩ := h.find_miss r (fun hm => hin ((h.mem_cached _).2 hm))
    exact ⟨s', by rw [decide_eq_false hin]; exact k1, by rw [if_neg hin]; exact k2.queues⟩

/-- Every call ends; the cached objects fit into the cache, and the ghosts stand for no more bytes than the main queue may hold. -/
theorem C91_terminatesWithinSize_QDLPv0 (cs md fs : Nat) (hf : fs ≤ cs) (adm : Adm) (ops : List Op) (ho : ∀ op ∈ ops, Calls getFindEvict (SizeOk md) op) :
    ∃ out s, Reaches QDLPv0.algo (QDLPv0.init cs md fs adm) ops out s ∧ bytes md (QDLPv0_cached s) ≤ cs ∧ bytes md (QDLPv0_queues s).ghosts ≤ cs - fs := by
  have C := QDLPv0.contract ⟨cs, md, fs⟩
  obtain ⟨out, s, hr⟩ := C.safe (QDLPv0.inv_init cs md fs hf adm) ops ho
  have hi := C.reach (QDLPv0.inv_init cs md fs hf adm) ho hr
  obtain ⟨h, hb⟩ := hi.abs
  refine ⟨out, s, hr, ?_, ?_⟩
  · rw [bytes_eq_charge, charge_perm h.cached]; exact hb.cap
  · rw [bytes_eq_charge]; exact hb.ghosts

end Verif.Props
