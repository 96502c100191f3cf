import Verif.Proof.CacheusFacts
import Verif.Proof.CacheusGet
import Verif.Props.SLRU
/-!
# Properties of Cacheus (libCacheSim/cache/eviction/{Cacheus,SR_LRU,CR_LFU}.c)

The statements are those of `Verif/Spec/Cache.lean` and `Verif/Spec/Cacheus.lean`.  They hold for every cache size above 0, admission policy, way of adapting the weights, and sequence of random
numbers, without metadata, and for every sequence of client calls without `remove` in which no request is for an object whose size (as a 32-bit number) is 0.  Outside of these bounds Cacheus crashes: see the
end of the file.
-/

namespace Verif.Props
open Verif Verif.Spec
open Verif.Cacheus (Arith)
set_option linter.unusedVariables false
set_option maxRecDepth 20000

abbrev Cacheus_A (A : Arith) : Algo (Cacheus.State A) := Cacheus.algo A

abbrev Cacheus_new (A : Arith) (cs : Nat) (adm : Adm) (draws : List Nat) : Cacheus.State A := Cacheus.init A cs false adm draws

/-- the two lists of the first expert (the reused objects, the new ones), most recent first -/
def Cacheus_keep {A : Arith} (s : Cacheus.State A) : Contents := s.lru.R.objs.map (fun o => (o.id, o.size))
def Cacheus_trial {A : Arith} (s : Cacheus.State A) : Contents := s.lru.SR.objs.map (fun o => (o.id, o.size))
/-- its history -/
def Cacheus_past {A : Arith} (s : Cacheus.State A) : Contents := s.lru.H.objs.map (fun o => (o.id, o.size))

/-- what Cacheus has cached: what its first expert has -/
def Cacheus_cached {A : Arith} (s : Cacheus.State A) : Contents := Cacheus_keep s ++ Cacheus_trial s

/-- what the second expert has -/
def Cacheus_second {A : Arith} (s : Cacheus.State A) : Contents := s.lfu.base.tbl.map (fun o => (o.id, o.size))

/-- requests for objects whose size, as a 32-bit number, is not 0 -/
def NonEmpty (r : Req) : Prop := 0 < r.size % u32

/-- how the weights of the model are used -/
abbrev Cacheus_weighing (A : Arith) : Spec.Cacheus.Weighing A.W := ⟨A.lruWins, A.lruGhost, A.lfuGhost, A.noGhost, A.moved, A.learn, A.flat, A.keep, A.redraw⟩

/-- the start: nothing cached, nothing remembered; the learning rate is drawn -/
def Cacheus_start (A : Arith) (adm : Adm) (draws : List Nat) : Spec.Cacheus.St A.W := { w := A.init (draws.headD 0), draws := draws.tail, adm := adm }

/-! ### A demo run -/

/-- integer arithmetic for the demo: the weight of the first expert in percent, and the learning rate now and before -/
def Cacheus_R : Arith where
  W := Nat × Nat × Nat
  init := fun d => (50, 10 + d % 1000, 0)
  lruGhost := fun w => (w.1 - w.2.1, w.2)
  lfuGhost := fun w => (w.1 + w.2.1, w.2)
  noGhost := fun w => w
  lruWins := fun w x => x < w.1
  moved := fun w => w.2.1 ≠ w.2.2
  learn := fun w h => (w.1, w.2.1 + h, w.2.1)
  flat := fun w h => h = 0
  keep := fun w _ => (w.1, w.2.1, w.2.1)
  redraw := fun w _ d => (w.1, 10 + d, w.2.1)

/-- hits in both lists, evictions by both experts and by agreement, misses on objects of all three histories, an explicit eviction and insertion, an object too large for half of the cache -/
def Cacheus_ops : List Op := [.get ⟨1, 2, -2⟩, .get ⟨2, 1, -2⟩, .get ⟨1, 2, -2⟩, .get ⟨2, 1, -2⟩, .get ⟨3, 1, -2⟩, .get ⟨4, 1, -2⟩, .find ⟨3, 2, -2⟩ false, .find ⟨3, 2, -2⟩ true, .get ⟨5, 2, -2⟩, .get ⟨6, 2, -2⟩,
  .get ⟨7, 30, -2⟩, .get ⟨8, 5, -2⟩, .get ⟨1, 2, -2⟩, .get ⟨3, 1, -2⟩, .get ⟨9, 2, -2⟩, .get ⟨9, 2, -2⟩, .get ⟨10, 2, -2⟩, .get ⟨11, 1, -2⟩, .get ⟨3, 1, -2⟩, .evict ⟨0, 1, -2⟩, .insert ⟨12, 1, -2⟩, .get ⟨5, 2, -2⟩,
  .get ⟨2, 1, -2⟩, .get ⟨6, 2, -2⟩, .get ⟨2, 1, -2⟩]

def Cacheus_demo0 : Cacheus.State Cacheus_R := Cacheus_new Cacheus_R 8 .none [3, 70, 10, 60, 30, 90, 20]
def Cacheus_demo : Cacheus.State Cacheus_R := after (Cacheus_A Cacheus_R) Cacheus_demo0 Cacheus_ops

theorem Cacheus_demo_reached : Reaches (Cacheus_A Cacheus_R) Cacheus_demo0 Cacheus_ops
      [false, false, true, true, false, false, true, true, false, false, false, false, false, true, false, true, false, false, true, true, true, false, false, false, true] Cacheus_demo ∧
    Cacheus_keep Cacheus_demo = [(2, 1), (3, 1), (9, 2)] ∧ Cacheus_trial Cacheus_demo = [(6, 2), (5, 2)] ∧ Cacheus_past Cacheus_demo = [(12, 1), (10, 2), (11, 1), (1, 2)] ∧
    Cacheus_demo.lruG.order = [(12, 1), (4, 1)] ∧ Cacheus_demo.lfuG.order = [(11, 1)] :=
  ⟨reaches_after (by decide +kernel), by decide +kernel, by decide +kernel, by decide +kernel, by decide +kernel, by decide +kernel⟩

theorem Cacheus_demo_calls : ∀ op ∈ Cacheus_ops, Calls noRemove NonEmpty op := by
  intro op hop
  simp only [Cacheus_ops, List.mem_cons, List.not_mem_nil, or_false] at hop
  rcases hop with rfl | rfl | rfl | rfl | rfl | rfl | rfl | rfl | rfl | rfl | rfl | rfl | rfl | rfl | rfl | rfl | rfl | rfl | rfl | rfl | rfl | rfl | rfl | rfl | rfl <;>
    simp [Calls, NonEmpty, u32]

section
variable (A : Arith) (cs : Nat) (hcs : 0 < cs) (adm : Adm) (draws : List Nat)
include hcs

theorem C01_capacity_Cacheus_partial : Capacity (Cacheus_A A) (Cacheus_new A cs adm draws) (Calls noRemove NonEmpty) cs :=
  (Cacheus.contract A hcs).capacity ⟨_, _, Cacheus.Sim.init A cs adm draws⟩

theorem C02_accounting_Cacheus_partial : Accounting (Cacheus_A A) Cacheus_cached (Cacheus_new A cs adm draws) (Calls noRemove NonEmpty) 0 :=
  (Cacheus.contract A hcs).accounting ⟨_, _, Cacheus.Sim.init A cs adm draws⟩

theorem C03_hitIffCached_Cacheus_partial : HitIffCached (Cacheus_A A) Cacheus_cached (Cacheus_new A cs adm draws) (Calls noRemove NonEmpty) :=
  (Cacheus.contract A hcs).hitIffCached ⟨_, _, Cacheus.Sim.init A cs adm draws⟩

theorem C04_noPhantom_Cacheus_partial : NoPhantom (Cacheus_A A) Cacheus_cached (Cacheus_new A cs adm draws) (Calls noRemove NonEmpty) :=
  (Cacheus.contract A hcs).noPhantom ⟨_, _, Cacheus.Sim.init A cs adm draws⟩ rfl (fun hp => by cases hp)

theorem C04_addsOnlyRequested_Cacheus_partial : AddsOnlyRequested (Cacheus_A A) Cacheus_cached (Cacheus_new A cs adm draws) (Calls noRemove NonEmpty) :=
  (Cacheus.contract A hcs).addsOnlyRequested ⟨_, _, Cacheus.Sim.init A cs adm draws⟩

/-- C05: an admitted miss is cached, if the object fits into half of the cache. -/
theorem C05_admittedMissCached_Cacheus_partial :
    AdmittedMissCached (Cacheus_A A) Cacheus_cached (fun s r => admitsBase s.base r && decide (r.size ≤ cs / 2)) (Cacheus_new A cs adm draws) (Calls noRemove NonEmpty) := by
  intro ops out s ho hr r hok hn ha
  have h := (Cacheus.reach hcs (Cacheus.Sim.init A cs adm draws) ho hr).1
  rw [Bool.and_eq_true, decide_eq_true_eq] at ha
  have hadm : (s.base.adm.admit r).1 = true := by
    have := ha.1
    unfold admitsBase at this
    rw [Bool.and_eq_true] at this
    exact this.1
  rw [h.adm] at hadm
  rw [show (Cacheus_cached s).ids = _ from congrArg Contents.ids h.cached_eq] at hn
  obtain ⟨s', e, h'⟩ := h.get_ok hcs hok
  obtain ⟨e1, e2⟩ := Cacheus.spec_stores h hcs hn hadm ha.2
  rw [e1] at e
  exact ⟨s', e, by rw [show Cacheus_cached s' = _ from h'.cached_eq]; exact e2⟩

/-- C06: a hit evicts nothing. -/
theorem C06_hitKeeps_Cacheus_partial (ops : List Op) (out : List Bool) (s : Cacheus.State A) (ho : ∀ op ∈ ops, Calls noRemove NonEmpty op)
    (hr : Reaches (Cacheus_A A) (Cacheus_new A cs adm draws) ops out s) (r : Req) (hok : NonEmpty r) (hm : r.id ∈ (Cacheus_cached s).ids) :
    ∃ s', (Cacheus_A A).get s r = .ok (true, s') ∧ (Cacheus_cached s').Perm (Cacheus_cached s) := by
  have h := (Cacheus.reach hcs (Cacheus.Sim.init A cs adm draws) ho hr).1
  rw [show (Cacheus_cached s).ids = _ from congrArg Contents.ids h.cached_eq] at hm
  obtain ⟨s', e, h'⟩ := h.get_ok hcs hok
  obtain ⟨e1, e2⟩ := Cacheus.spec_hit (A := A) (cs := cs) hm
  rw [e1] at e
  exact ⟨s', e, by rw [show Cacheus_cached s' = _ from h'.cached_eq, show Cacheus_cached s = _ from h.cached_eq]; exact e2⟩

/-- C07: a removal (the first one of the history) is exact. -/
theorem C07_removeExact_Cacheus_partial : RemoveExact (Cacheus_A A) Cacheus_cached (Cacheus_new A cs adm draws) (Calls noRemove NonEmpty) := by
  intro ops out s ho hr id
  have h := (Cacheus.reach hcs (Cacheus.Sim.init A cs adm draws) ho hr).1
  obtain ⟨s', e, h'⟩ := h.remove hcs id
  refine ⟨s', ?_, ?_⟩
  · rw [show (Cacheus_cached s).ids = _ from congrArg Contents.ids h.cached_eq]; exact e
  · rw [show Cacheus_cached s' = _ from h', show Cacheus_cached s = _ from h.cached_eq]

/-- C08: a request that is not admitted leaves both experts unchanged.  (It does count as a miss for the histories and the weights.) -/
theorem C08_rejectQuiet_Cacheus_partial :
    RejectQuiet (Cacheus_A A) Cacheus_cached (fun s r => admitsBase s.base r) (fun s => (s.lru, s.lfu)) (Cacheus_new A cs adm draws) (Calls noRemove NonEmpty) := by
  intro ops out s ho hr r hok hn ha
  have h := (Cacheus.reach hcs (Cacheus.Sim.init A cs adm draws) ho hr).1
  rw [show (Cacheus_cached s).ids = _ from congrArg Contents.ids h.cached_eq] at hn
  exact Cacheus.reject h hcs hn ha

theorem C09_safe_Cacheus_partial : Safe (Cacheus_A A) (Cacheus_new A cs adm draws) (Calls noRemove NonEmpty) :=
  (Cacheus.contract A hcs).safe ⟨_, _, Cacheus.Sim.init A cs adm draws⟩

/-- C10: on a non-empty cache `to_evict` names a cached object and changes nothing that is cached; the next `evict` removes that object, and does just what it would have done without `to_evict`. -/
theorem C10_toEvict_Cacheus_partial (ops : List Op) (out : List Bool) (s : Cacheus.State A) (ho : ∀ op ∈ ops, Calls noRemove NonEmpty op)
    (hr : Reaches (Cacheus_A A) (Cacheus_new A cs adm draws) ops out s) (hne : Cacheus_cached s ≠ []) (r : Req) :
    ∃ c n s1 s', Cacheus.toEvict s = .ok (some c, s1) ∧ Cacheus_cached s1 = Cacheus_cached s ∧ (Cacheus_A A).evict s1 r = .ok s' ∧ (Cacheus_A A).evict s r = .ok s' ∧
      (c.2, n) ∈ Cacheus_cached s ∧ Cacheus_cached s' = (Cacheus_cached s).filter (fun x => x.1 ≠ c.2) := by
  have h := (Cacheus.reach hcs (Cacheus.Sim.init A cs adm draws) ho hr).1
  rw [show Cacheus_cached s = _ from h.cached_eq] at hne
  obtain ⟨c, n, e1, e2, e3⟩ := h.toEvict_names hne
  obtain ⟨s', e4, h', _⟩ := h.evict hcs hne
  have hvt : s.candVt ≠ (s.base.nReq : Int) := by rw [h.vt]; omega
  refine ⟨c, n, _, s', e1, rfl, ?_, e4, by rw [show Cacheus_cached s = _ from h.cached_eq]; exact e2, ?_⟩
  · exact (Cacheus.Sim.evict_after hvt e1).trans e4
  · rw [show Cacheus_cached s' = _ from h'.cached_eq, show Cacheus_cached s = _ from h.cached_eq, e3]

/-! ## C85: two experts on one cache -/

/-- C85: every sequence of calls gives the answers, the lists, the histories and the weights of the reference in `Verif/Spec/Cacheus.lean`. -/
theorem C85_experts_Cacheus_partial (ops : List Op) (ho : ∀ op ∈ ops, Calls noRemove NonEmpty op) :
    ∃ s, Reaches (Cacheus_A A) (Cacheus_new A cs adm draws) ops (Spec.Cacheus.run (Cacheus_weighing A) cs (Cacheus_start A adm draws) ops).1 s ∧
      Cacheus_keep s = (Spec.Cacheus.run (Cacheus_weighing A) cs (Cacheus_start A adm draws) ops).2.keep ∧
      Cacheus_trial s = (Spec.Cacheus.run (Cacheus_weighing A) cs (Cacheus_start A adm draws) ops).2.trial ∧
      Cacheus_past s = (Spec.Cacheus.run (Cacheus_weighing A) cs (Cacheus_start A adm draws) ops).2.past ∧
      s.lruG.order = (Spec.Cacheus.run (Cacheus_weighing A) cs (Cacheus_start A adm draws) ops).2.ghostLru ∧
      s.lfuG.order = (Spec.Cacheus.run (Cacheus_weighing A) cs (Cacheus_start A adm draws) ops).2.ghostLfu ∧
      s.w = (Spec.Cacheus.run (Cacheus_weighing A) cs (Cacheus_start A adm draws) ops).2.w := by
  obtain ⟨s, e, h⟩ := Cacheus.run_ok hcs ops _ _ (Cacheus.Sim.init A cs adm draws) ho
  obtain ⟨R, SR, H, hr⟩ := h.rel
  refine ⟨s, e, ?_, ?_, ?_, h.gl.order, h.gf.order, h.w⟩
  · unfold Cacheus_keep; rw [hr.lr.r.objs]; exact hr.keep.symm
  · unfold Cacheus_trial; rw [hr.lr.sr.objs]; exact hr.trial.symm
  · unfold Cacheus_past; rw [hr.lr.h.objs]; exact hr.past.symm

/-- C85: the two experts always hold the same objects, with the same sizes, and no object is both cached and in the history. -/
theorem C85_sameObjects_Cacheus_partial (ops : List Op) (out : List Bool) (s : Cacheus.State A) (ho : ∀ op ∈ ops, Calls noRemove NonEmpty op)
    (hr : Reaches (Cacheus_A A) (Cacheus_new A cs adm draws) ops out s) :
    (Cacheus_second s).Perm (Cacheus_cached s) ∧ ∀ i ∈ (Cacheus_past s).ids, i ∉ (Cacheus_cached s).ids := by
  have h := (Cacheus.reach hcs (Cacheus.Sim.init A cs adm draws) ho hr).1
  have hc : Cacheus_cached s = _ := h.cached_eq
  obtain ⟨R, SR, H, hr⟩ := h.rel
  refine ⟨by rw [hc]; exact hr.lf.tc, ?_⟩
  intro i hi hm
  have hp : Cacheus_past s = cont H := by unfold Cacheus_past; rw [hr.lr.h.objs]; rfl
  rw [hp, cont_ids] at hi
  rw [hc] at hm
  exact (List.nodup_append.1 hr.lr.nd).2.2 _ ((hr.mem_contents i).1 hm) _ hi rfl

/-- C85: the reused objects have at most half of the cache; the objects in the history have less than the size of the cache. -/
theorem C85_halves_Cacheus_partial (ops : List Op) (out : List Bool) (s : Cacheus.State A) (ho : ∀ op ∈ ops, Calls noRemove NonEmpty op)
    (hr : Reaches (Cacheus_A A) (Cacheus_new A cs adm draws) ops out s) :
    bytes 0 (Cacheus_keep s) ≤ cs / 2 ∧ bytes 0 (Cacheus_past s) < cs := by
  have h := (Cacheus.reach hcs (Cacheus.Sim.init A cs adm draws) ho hr).1
  have hp := Cacheus.run_past (K := Cacheus.weigh A) hcs ops { w := A.init (draws.headD 0), draws := draws.tail, adm := adm } hcs
  have hh := h.half
  obtain ⟨R, SR, H, hr⟩ := h.rel
  refine ⟨?_, ?_⟩
  · rw [bytes_eq_charge]; unfold Cacheus_keep; rw [hr.lr.r.objs]; rw [hr.keep] at hh; exact hh
  · unfold Cacheus_past; rw [hr.lr.h.objs]; rw [hr.past] at hp; exact hp

/-- C85: `unlearn_count`, which `Cacheus_init` does not set, is set before it is read: as long as it is unset, the next adaptation takes the branch that sets it.  That needs only that the first learning
rate differs from the previous one (which is 0), and that the weight updates leave the learning rate alone. -/
theorem C85_count_Cacheus_partial (h0 : ∀ d, A.moved (A.init d) = true)
    (h1 : ∀ w, A.moved (A.lruGhost w) = A.moved w ∧ A.moved (A.lfuGhost w) = A.moved w ∧ A.moved (A.noGhost w) = A.moved w)
    (ops : List Op) (out : List Bool) (s : Cacheus.State A) (ho : ∀ op ∈ ops, Calls noRemove NonEmpty op) (hr : Reaches (Cacheus_A A) (Cacheus_new A cs adm draws) ops out s) :
    s.unlearn = none → A.moved s.w = true := by
  have h := (Cacheus.reach hcs (Cacheus.Sim.init A cs adm draws) ho hr).1
  have hc := Cacheus.run_counted (C := cs) h1 ops { w := A.init (draws.headD 0), draws := draws.tail, adm := adm } (fun _ => h0 _)
  rw [h.dull, h.w]
  exact hc

end

/-- The model's `get` is `cache_get_base` followed by the adaptation, for every state between two calls of a cache with space. -/
theorem C85_get_Cacheus (A : Arith) (s : Cacheus.State A) (r : Req) (hg : s.inGet = false) (hc : s.base.cacheSize ≠ 0) :
    (Cacheus_A A).get s r = (Cacheus.plain A).get s r >>= fun p => .ok (p.1, Cacheus.endGet p.2) := Cacheus.get_eq s r hg hc

/-! ### Instances -/

example : Cacheus_demo.inGet = false ∧ Cacheus_demo.base.cacheSize ≠ 0 := by decide +kernel
example : (∀ d, Cacheus_R.moved (Cacheus_R.init d) = true) ∧
    ∀ w, Cacheus_R.moved (Cacheus_R.lruGhost w) = Cacheus_R.moved w ∧ Cacheus_R.moved (Cacheus_R.lfuGhost w) = Cacheus_R.moved w ∧ Cacheus_R.moved (Cacheus_R.noGhost w) = Cacheus_R.moved w :=
  ⟨fun d => by simp [Cacheus_R], fun w => ⟨rfl, rfl, rfl⟩⟩
/-- the next eviction from the demo -/
example : ∃ c n s1 s', Cacheus.toEvict Cacheus_demo = .ok (some c, s1) ∧ Cacheus_cached s1 = Cacheus_cached Cacheus_demo ∧ (Cacheus_A Cacheus_R).evict s1 ⟨0, 1, -2⟩ = .ok s' ∧
      (Cacheus_A Cacheus_R).evict Cacheus_demo ⟨0, 1, -2⟩ = .ok s' ∧ (c.2, n) ∈ Cacheus_cached Cacheus_demo ∧ Cacheus_cached s' = (Cacheus_cached Cacheus_demo).filter (fun x => x.1 ≠ c.2) :=
  C10_toEvict_Cacheus_partial Cacheus_R 8 (by decide) .none _ Cacheus_ops _ Cacheus_demo Cacheus_demo_calls Cacheus_demo_reached.1 (by decide +kernel) ⟨0, 1, -2⟩
example : (Spec.Cacheus.run (Cacheus_weighing Cacheus_R) 8 (Cacheus_start Cacheus_R .none [3, 70, 10, 60, 30, 90, 20]) Cacheus_ops).1 =
    [false, false, true, true, false, false, true, true, false, false, false, false, false, true, false, true, false, false, true, true, true, false, false, false, true] := by decide +kernel
/-- a miss that stores the object -/
example : ∃ s', (Cacheus_A Cacheus_R).get Cacheus_demo ⟨20, 4, -2⟩ = .ok (false, s') ∧ (20, 4) ∈ Cacheus_cached s' :=
  C05_admittedMissCached_Cacheus_partial Cacheus_R 8 (by decide) .none _ Cacheus_ops _ Cacheus_demo Cacheus_demo_calls Cacheus_demo_reached.1 ⟨20, 4, -2⟩ (by simp [Calls, NonEmpty, u32]) (by decide +kernel) (by decide +kernel)

/-! ### What fails outside the bounds -/

/-- C02 fails with metadata: the three structures account for 40, 16 and 2 bytes of metadata per object. -/
theorem C02_metadata_fails_Cacheus : ¬ Accounting (Cacheus_A Cacheus_R) Cacheus_cached (Cacheus.init Cacheus_R 1000 true .none []) (Calls noRemove NonEmpty) 40 := by
  intro h
  have := (h [.get ⟨1, 100, -2⟩] [false] _ (by simp [Calls, NonEmpty, u32]) (reaches_after (by decide +kernel))).1
  revert this
  decide +kernel

/-- C05 fails for an object larger than half of the cache: it is admitted and other objects are evicted for it, but it is not stored.  Here an object of size 3 costs a cache of 4 bytes one of its two objects. -/
theorem C05_large_fails_Cacheus : ∃ (ops : List Op) (s s' : Cacheus.State Cacheus_R), (∀ op ∈ ops, Calls noRemove NonEmpty op) ∧
    Reaches (Cacheus_A Cacheus_R) (Cacheus_new Cacheus_R 4 .none []) ops [false, false] s ∧ admitsBase s.base ⟨3, 3, -2⟩ = true ∧ (Cacheus_cached s).length = 2 ∧
    (Cacheus_A Cacheus_R).get s ⟨3, 3, -2⟩ = .ok (false, s') ∧ (Cacheus_cached s').length = 1 ∧ 3 ∉ (Cacheus_cached s').ids :=
  ⟨[.get ⟨1, 1, -2⟩, .get ⟨2, 1, -2⟩], _, stOf Cacheus_demo ((Cacheus_A Cacheus_R).get (after (Cacheus_A Cacheus_R) (Cacheus_new Cacheus_R 4 .none []) [.get ⟨1, 1, -2⟩, .get ⟨2, 1, -2⟩]) ⟨3, 3, -2⟩),
    by simp [Calls, NonEmpty, u32], reaches_after (by decide +kernel), by decide +kernel, by decide +kernel, res_ok Cacheus_demo (by decide +kernel), by decide +kernel, by decide +kernel⟩

/-- C06 fails: objects requested once can use only half of the cache.  Here the third object of size 1 evicts the first one from a cache of 4 bytes. -/
theorem C06_half_fails_Cacheus : ¬ EvictOnDemand (Cacheus_A Cacheus_R) Cacheus_cached (Cacheus_new Cacheus_R 4 .none []) (Calls noRemove NonEmpty) 4 0 := by
  intro h
  have h1 : Reaches (Cacheus_A Cacheus_R) (Cacheus_new Cacheus_R 4 .none []) [.get ⟨1, 1, -2⟩, .get ⟨2, 1, -2⟩] [false, false]
      (after (Cacheus_A Cacheus_R) (Cacheus_new Cacheus_R 4 .none []) [.get ⟨1, 1, -2⟩, .get ⟨2, 1, -2⟩]) := reaches_after (by decide +kernel)
  obtain ⟨vs, kept, h2, h3, h4⟩ := (h _ _ _ (by
    intro op hop
    simp only [List.mem_cons, List.not_mem_nil, or_false] at hop
    rcases hop with rfl | rfl <;> simp [Calls, NonEmpty, u32]) h1 ⟨3, 1, -2⟩ false _ (by simp [Calls, NonEmpty, u32]) (get_after (by decide +kernel))).2 rfl
  have e1 : Cacheus_cached (after (Cacheus_A Cacheus_R) (Cacheus_new Cacheus_R 4 .none []) [.get ⟨1, 1, -2⟩, .get ⟨2, 1, -2⟩]) = [(2, 1), (1, 1)] := by decide +kernel
  have e2 : Cacheus_cached (after (Cacheus_A Cacheus_R) (after (Cacheus_A Cacheus_R) (Cacheus_new Cacheus_R 4 .none []) [.get ⟨1, 1, -2⟩, .get ⟨2, 1, -2⟩]) [.get ⟨3, 1, -2⟩]) = [(3, 1), (2, 1)] := by
    decide +kernel
  rw [e1] at h2
  rw [e2] at h3
  have hl := h2.length_eq
  simp only [List.length_append, List.length_cons, List.length_nil] at hl
  have hk : kept.length = 2 ∨ kept.length = 1 := by
    rcases h3 with h3 | h3
    · left; have := h3.length_eq; simpa using this.symm
    · right; have := h3.length_eq; simpa using this.symm
  rcases hk with hk | hk
  · have : vs = [] := List.eq_nil_of_length_eq_zero (by omega)
    subst this
    rcases h3 with h3 | h3
    · have := (h2.trans h3.symm).mem_iff (a := (1, 1))
      simp at this
    · have := h3.length_eq
      simp only [List.length_cons, List.length_nil] at this
      omega
  · obtain ⟨v, rfl⟩ : ∃ v, vs = [v] := List.length_eq_one_iff.1 (by omega)
    obtain ⟨w, rfl⟩ : ∃ w, kept = [w] := List.length_eq_one_iff.1 hk
    have h5 := h4 [] v rfl
    have hv : v ∈ [(2, 1), (1, 1)] := h2.mem_iff.2 (by simp)
    have hw : w ∈ [(2, 1), (1, 1)] := h2.mem_iff.2 (by simp)
    simp only [List.mem_cons, List.not_mem_nil, or_false] at hv hw
    rcases hv with rfl | rfl <;> rcases hw with rfl | rfl <;> simp [bytes] at h5

/-- C09 fails if an object is removed that is the only one: when it comes back with its old count, the smallest count is still 1, and the next eviction finds no object with that count. -/
theorem C09_remove_fails_Cacheus : ∃ ops : List Op, (∀ op ∈ ops, Calls {} (fun r => r.size = 1) op) ∧ (Cacheus_A Cacheus_R).run (Cacheus_new Cacheus_R 2 .none []) ops = .error .nullDeref :=
  ⟨[.get ⟨1, 1, -2⟩, .remove 1, .get ⟨1, 1, -2⟩, .evict ⟨9, 1, -2⟩], by simp [Calls], res_err (by decide +kernel)⟩

/-- C09 fails with an empty object: the LRU expert looks at the occupied space of its list, which is 0, takes the list for empty and returns NULL. -/
theorem C09_empty_fails_Cacheus : ∃ ops : List Op, (∀ op ∈ ops, Calls noRemove (fun r => r.size ≤ 1) op) ∧ (Cacheus_A Cacheus_R).run (Cacheus_new Cacheus_R 2 .none []) ops = .error .nullDeref :=
  ⟨[.get ⟨1, 0, -2⟩, .evict ⟨9, 1, -2⟩], by simp [Calls], res_err (by decide +kernel)⟩

/-- C09 fails for a cache of size 0: the first request divides by the size. -/
theorem C09_noSpace_fails_Cacheus : (Cacheus_A Cacheus_R).run (Cacheus_new Cacheus_R 0 .none []) [.get ⟨1, 1, -2⟩] = .error .divZero := res_err (by decide +kernel)

/-- C10 fails across other calls: the answer of `to_evict` is kept until the next request.  Here the client removes the announced object; the next `evict` reads it. -/
theorem C10_stale_fails_Cacheus : ∃ s1 s2 : Cacheus.State Cacheus_R,
    Cacheus.toEvict (after (Cacheus_A Cacheus_R) (Cacheus_new Cacheus_R 8 .none []) [.get ⟨1, 1, -2⟩, .get ⟨2, 1, -2⟩, .get ⟨3, 1, -2⟩]) = .ok (some (.sr, 1), s1) ∧
    (Cacheus_A Cacheus_R).remove s1 1 = .ok (true, s2) ∧ (Cacheus_A Cacheus_R).evict s2 ⟨9, 1, -2⟩ = .error .useAfterFree := by
  refine ⟨_, _, res_ok Cacheus_demo (by decide +kernel), res_ok Cacheus_demo (by decide +kernel), res_err (by decide +kernel)⟩

end Verif.Props
