import Verif.Proof.LeCaRRun
import Verif.Props.Demo
/-!
# Properties of LeCaR (libCacheSim/cache/eviction/LeCaR.c)

The statements are those of `Verif/Spec/Cache.lean` and `Verif/Spec/LeCaR.lean`.  They hold for every way `R` of adapting the weights, every sequence `draws` of random numbers,
every cache size `cs`, every metadata size `md`, every admission policy and every sequence of `get`, `find` and `evict` calls with requests as in `Adaptive.Requests`.
The access counter does not overflow in them; `C53_counter_LeCaR_partial` says that it does not in runs of fewer than 2^22 - 1 calls.
The theorems named `_fails` show what goes wrong outside these bounds.
-/

namespace Verif.Props
open Verif Verif.Spec Verif.Spec.LeCaR
open Verif.Spec.Adaptive (Requests)
set_option linter.unusedVariables false
set_option maxRecDepth 20000

/-- the algorithm with an access counter that does not overflow -/
abbrev LeCaR_A (R : LeCaR.Arith) : Algo (LeCaR.State R) := LeCaR.algo R LeCaR.Counter.exact

/-- ids and sizes of the cached objects, most recently used first -/
abbrev LeCaR_cached {R : LeCaR.Arith} (s : LeCaR.State R) : Contents := LeCaR.cached s

/-- the cached objects with their access counts, most recently used first -/
abbrev LeCaR_view {R : LeCaR.Arith} (s : LeCaR.State R) : List Item := LeCaR.view s

/-- the evicted objects that are remembered -/
abbrev LeCaR_ghosts {R : LeCaR.Arith} (s : LeCaR.State R) : Ghosts := LeCaR.ghosts s

/-- `get`, `find` and `evict` -/
abbrev getFindEvict : Perms := { rem := false, ins := false }

/-- weights as percentages, for the examples: an expert loses 10 when an object it evicted is requested -/
def LeCaR_R : LeCaR.Arith := { W := Nat, init := 50, updLru := fun w _ => w - 10, updLfu := fun w _ => w + 10, lruWins := fun w x => decide (x < w) }

abbrev LeCaR_X : Algo (LeCaR.State LeCaR_R) := LeCaR_A LeCaR_R
def LeCaR_x0 (cs : Nat) (draws : List Nat) : LeCaR.State LeCaR_R := LeCaR.init LeCaR_R cs 0 .none draws

/-- a demo run: hits, evictions by either expert and by both, requests for ghosts, an object that is too large -/
def LeCaR_ops : List Op := [.get ⟨1, 1, -2⟩, .get ⟨2, 1, -2⟩, .get ⟨1, 1, -2⟩, .get ⟨3, 1, -2⟩, .get ⟨4, 1, -2⟩, .get ⟨2, 1, -2⟩, .find ⟨1, 1, -2⟩ true, .get ⟨5, 9, -2⟩, .get ⟨6, 1, -2⟩,
  .get ⟨7, 2, -2⟩, .evict ⟨8, 1, -2⟩, .get ⟨1, 1, -2⟩]

def LeCaR_demo : LeCaR.State LeCaR_R := after LeCaR_X (LeCaR_x0 4 [60, 30, 99, 10, 20, 70]) LeCaR_ops

theorem LeCaR_demo_reached : Reaches LeCaR_X (LeCaR_x0 4 [60, 30, 99, 10, 20, 70]) LeCaR_ops [false, false, true, false, false, true, true, false, false, false, true, true] LeCaR_demo ∧
    LeCaR_view LeCaR_demo = [⟨1, 1, 4⟩, ⟨7, 2, 1⟩] ∧ (LeCaR_ghosts LeCaR_demo).lru = [(2, 1)] ∧ (LeCaR_ghosts LeCaR_demo).lfu = [(6, 1)] ∧
    LeCaR_demo.base.tbl.map (·.id) = [7, 6, 4, 3, 2, 1] ∧ LeCaR_demo.picks = [99, 10, 20, 70] :=
  ⟨reaches_after (by decide +kernel), by decide +kernel, by decide +kernel, by decide +kernel, by decide +kernel, by decide +kernel⟩

/-- the calls of the demo run are among those considered -/
example : ∀ op ∈ LeCaR_ops, Calls getFindEvict (Requests 4 0) op := by
  intro op hop
  simp only [LeCaR_ops, List.mem_cons, List.not_mem_nil, or_false] at hop
  rcases hop with rfl | rfl | rfl | rfl | rfl | rfl | rfl | rfl | rfl | rfl | rfl | rfl <;> simp [Calls, Requests, u32]

section
variable (R : LeCaR.Arith) (cs md : Nat) (adm : Adm) (draws : List Nat)

theorem C01_capacity_LeCaR_partial : Capacity (LeCaR_A R) (LeCaR.init R cs md adm draws) (Calls getFindEvict (Requests cs md)) cs :=
  LeCaR.contract.capacity (LeCaR.inv_init cs md adm draws)

theorem C02_accounting_LeCaR_partial : Accounting (LeCaR_A R) LeCaR_cached (LeCaR.init R cs md adm draws) (Calls getFindEvict (Requests cs md)) md :=
  LeCaR.contract.accounting (LeCaR.inv_init cs md adm draws)

theorem C03_hitIffCached_LeCaR_partial : HitIffCached (LeCaR_A R) LeCaR_cached (LeCaR.init R cs md adm draws) (Calls getFindEvict (Requests cs md)) :=
  LeCaR.contract.hitIffCached (LeCaR.inv_init cs md adm draws)

theorem C04_noPhantom_LeCaR_partial : NoPhantom (LeCaR_A R) LeCaR_cached (LeCaR.init R cs md adm draws) (Calls getFindEvict (Requests cs md)) :=
  LeCaR.contract.noPhantom (LeCaR.inv_init cs md adm draws) rfl (by intro h; cases h)

theorem C04_addsOnlyRequested_LeCaR_partial : AddsOnlyRequested (LeCaR_A R) LeCaR_cached (LeCaR.init R cs md adm draws) (Calls getFindEvict (Requests cs md)) :=
  LeCaR.contract.addsOnlyRequested (LeCaR.inv_init cs md adm draws)

theorem C06_evictOnDemand_LeCaR_partial : EvictOnDemand (LeCaR_A R) LeCaR_cached (LeCaR.init R cs md adm draws) (Calls getFindEvict (Requests cs md)) cs md := by
  refine LeCaR.contract.evictOnDemand (LeCaR.inv_init cs md adm draws) ?_
  rintro s s' r ⟨l, a, h, _⟩ hok hr hn hme hins
  rw [LeCaR.must h, decide_eq_false_iff_not] at hme
  obtain ⟨s2, h1, h2, _⟩ := h.insert r hr.2 (by omega) (hok hr.1)
  have : s2 = s' := by
    have hins' : LeCaR.insert s r = .ok s' := hins
    rw [h1] at hins'; cases hins'; rfl
  subst this
  rw [h2.cached_eq, h.cached_eq]
  exact Or.inl (List.Perm.refl _)

theorem C09_safe_LeCaR_partial : Safe (LeCaR_A R) (LeCaR.init R cs md adm draws) (Calls getFindEvict (Requests cs md)) :=
  LeCaR.contract.safe (LeCaR.inv_init cs md adm draws)

/-- C05: the admission policy accepts the object, and it is not larger than the cache. -/
theorem C05_admittedMissCached_LeCaR_partial :
    AdmittedMissCached (LeCaR_A R) LeCaR_cached (fun s r => admitsBase s.base r) (LeCaR.init R cs md adm draws) (Calls getFindEvict (Requests cs md)) := by
  intro ops out s ho hr r hok hnc ha
  have ha : admitsBase s.base r = true := ha
  obtain ⟨l, a, h, hb, hc⟩ := LeCaR.contract.reach (LeCaR.inv_init cs md adm draws) ho hr
  rw [LeCaR_cached, h.cached_eq, LeCaR.cont_ids] at hnc
  obtain ⟨s', l', a', k1, k2, _, _, _, _, _, _, k9⟩ := h.get_miss hb hc r hok hnc
  obtain ⟨vs, l1, _, rfl⟩ := k9 ha
  refine ⟨s', k1, ?_⟩
  have hlt : r.size + md < u32 := by
    apply hok
    simp only [admitsBase, Bool.and_eq_true, decide_eq_true_eq] at ha
    rw [h.mdz, h.csz] at ha; exact ha.2
  show (r.id, r.size % u32) ∈ LeCaR.cached s'
  rw [k2.cached_eq, Nat.mod_eq_of_lt (by omega)]
  exact List.mem_cons_self

end

example : 4 ∉ (LeCaR_cached LeCaR_demo).ids ∧ admitsBase LeCaR_demo.base ⟨4, 3, -2⟩ = true := by decide +kernel

section
variable (R : LeCaR.Arith) (cs md : Nat) (adm : Adm) (draws : List Nat) (ops : List Op) (out : List Bool) (s : LeCaR.State R)
  (ho : ∀ op ∈ ops, Calls getFindEvict (Requests cs md) op) (hr : Reaches (LeCaR_A R) (LeCaR.init R cs md adm draws) ops out s)
include ho hr

/-- C07 for the first `remove` of a run, if the object is cached: exactly it is removed, and the ghosts are left alone. -/
theorem C07_removeExact_LeCaR_partial (id : ObjId) (hc : id ∈ (LeCaR_cached s).ids) :
    ∃ s', (LeCaR_A R).remove s id = .ok (true, s') ∧ LeCaR_view s' = (LeCaR_view s).filter (fun x => x.id ≠ id) ∧ LeCaR_ghosts s' = LeCaR_ghosts s ∧
      (LeCaR_A R).occ s' = (bytes md (LeCaR_cached s') : Nat) := by
  obtain ⟨l, a, h, _⟩ := LeCaR.contract.reach (LeCaR.inv_init cs md adm draws) ho hr
  rw [LeCaR_cached, h.cached_eq, LeCaR.cont_ids] at hc
  obtain ⟨x, hx, rfl⟩ := h.of_mem hc
  obtain ⟨s', h1, h2⟩ := h.remove hx
  refine ⟨s', h1, ?_, ?_, ?_⟩
  · show LeCaR.view s' = _
    rw [h2.view_eq, LeCaR_view, h.view_eq]; rfl
  · show LeCaR.ghosts s' = LeCaR.ghosts s
    rw [h2.ghosts_eq, h.ghosts_eq, Lists.put_ne _ (by decide), Lists.put_ne _ (by decide), Lists.put_ne _ (by decide)]
  · show s'.base.occ = _
    rw [bytes_eq_charge, LeCaR_cached, h2.cached_eq, h2.occ]

omit ho hr in
/-- C07: `remove` of an object that LeCaR has never cached, or has forgotten, answers `false` and changes nothing. -/
theorem C07_removeUnknown_LeCaR_partial (id : ObjId) (hc : ∀ o ∈ s.base.tbl, o.id ≠ id) : (LeCaR_A R).remove s id = .ok (false, s) := by
  show LeCaR.remove s id = _
  have : s.base.lookup id = none := by
    cases e : s.base.lookup id with
    | none => rfl
    | some o => exact absurd (lookup_some_mem e).2 (hc o (lookup_some_mem e).1)
  rw [LeCaR.remove, this]

/-- C08: a request that is not admitted leaves the cached objects and their order alone; if the object is not a ghost, it also leaves the ghosts and the weights alone. -/
theorem C08_rejectQuiet_LeCaR_partial (r : Req) (hok : Requests cs md r) (hn : r.id ∉ (LeCaR_cached s).ids) (ha : admitsBase s.base r = false) :
    ∃ s', (LeCaR_A R).get s r = .ok (false, s') ∧ LeCaR_view s' = LeCaR_view s ∧ LeCaR_ghosts s' = forget r.id (LeCaR_ghosts s) ∧
      ((∀ o ∈ s.base.tbl, o.id ≠ r.id) → LeCaR_ghosts s' = LeCaR_ghosts s ∧ s'.w = s.w) := by
  obtain ⟨l, a, h, hb, hc⟩ := LeCaR.contract.reach (LeCaR.inv_init cs md adm draws) ho hr
  rw [LeCaR_cached, h.cached_eq, LeCaR.cont_ids] at hn
  obtain ⟨s', l', a', k1, k2, _, _, k5, _, _, k8, _⟩ := h.get_miss hb hc r hok hn
  obtain ⟨e1, e2, e3⟩ := k8 ha
  have hg : LeCaR_ghosts s' = forget r.id (LeCaR_ghosts s) := by
    show LeCaR.ghosts s' = forget r.id (LeCaR.ghosts s)
    rw [k2.ghosts_eq, h.ghosts_eq]; exact e2
  refine ⟨s', k1, ?_, hg, ?_⟩
  · show LeCaR.view s' = LeCaR.view s
    rw [k2.view_eq, h.view_eq, e1]
  · intro hno
    have hl : s.base.lookup r.id = none := by
      cases e : s.base.lookup r.id with
      | none => rfl
      | some o => exact absurd (lookup_some_mem e).2 (hno o (lookup_some_mem e).1)
    refine ⟨?_, ?_⟩
    · rw [hg]
      show forget r.id (LeCaR.ghosts s) = LeCaR.ghosts s
      rw [h.ghosts_eq]; exact LeCaR.forget_none h hl
    · rw [k5, LeCaR.newW, if_neg, if_neg]
      · rw [h.histLfu_eq]; exact h.rep.notMem hl _
      · rw [h.histLru_eq]; exact h.rep.notMem hl _

/-- C10 if the LRU expert wins the draw: `to_evict` names the object that `evict` then evicts. -/
theorem C10_toEvictPredicts_LeCaR_partial (hne : LeCaR_cached s ≠ []) (hw : R.lruWins s.w (s.picks.headD 0) = true) :
    ∃ v s1 s2, LeCaR.toEvict s = .ok (some v.1, s1) ∧ (LeCaR_A R).evict s1 ⟨0, 0, 0⟩ = .ok s2 ∧ LeCaR_cached s = LeCaR_cached s2 ++ [v] := by
  obtain ⟨l, a, h, hb, hc⟩ := LeCaR.contract.reach (LeCaR.inv_init cs md adm draws) ho hr
  have hl : l ≠ [] := by rintro rfl; exact hne h.cached_eq
  obtain ⟨v, hv, hlast, hlru⟩ := h.last hl
  have h1 := h.frame s.base.nReq s.base.adm s.w s.picks.tail s.base.nReq
  obtain ⟨s2, a2, u, e, t1, t2, t3, t4, _⟩ := h1.evictCand hl rfl
  have := LeCaR.takesLRU_unique hlru t4
  subst this
  refine ⟨v.entry, _, s2, by rw [LeCaR.toEvict, if_pos hw, hlast], t1, ?_⟩
  show LeCaR.cached s = LeCaR.cached s2 ++ _
  rw [h.cached_eq, t3.cached_eq]
  have t4 : l = LeCaR.del v.id l ++ [v] := t4
  conv => lhs; rw [t4]
  simp [LeCaR.cont]

/-! ## C53 -/

/-- A hit: the object becomes the most recent one and its count goes up; ghosts, weights and random numbers are left alone. -/
theorem C53_hit_LeCaR_partial (r : Req) (hin : r.id ∈ (LeCaR_cached s).ids) :
    ∃ s', (LeCaR_A R).get s r = .ok (true, s') ∧ Hits (LeCaR_view s) r.id (LeCaR_view s') ∧ LeCaR_ghosts s' = LeCaR_ghosts s ∧ s'.w = s.w ∧ s'.picks = s.picks := by
  obtain ⟨l, a, h, hb, hc⟩ := LeCaR.contract.reach (LeCaR.inv_init cs md adm draws) ho hr
  rw [LeCaR_cached, h.cached_eq, LeCaR.cont_ids] at hin
  obtain ⟨s', l', a', k1, k2, _, _, k5, k6, k7, k8, _⟩ := h.get_hit hb hc r hin
  refine ⟨s', k1, ?_, ?_, k7, k8⟩
  · show Hits (LeCaR.view s) _ (LeCaR.view s')
    rw [k2.view_eq, h.view_eq]; exact k5
  · show LeCaR.ghosts s' = LeCaR.ghosts s
    rw [k2.ghosts_eq, h.ghosts_eq]; exact k6

/-- A miss that is admitted: a ghost is forgotten, with the new weights objects are evicted as the experts and the draws say, and the object becomes the most recent one, counted once. -/
theorem C53_miss_LeCaR_partial (r : Req) (hok : Requests cs md r) (hn : r.id ∉ (LeCaR_cached s).ids) (ha : admitsBase s.base r = true) :
    ∃ s' vs l1, (LeCaR_A R).get s r = .ok (false, s') ∧
      EvictsAll cs md (R.lruWins s'.w) ⟨LeCaR_view s, s.picks, forget r.id (LeCaR_ghosts s)⟩ vs ⟨l1, s'.picks, LeCaR_ghosts s'⟩ ∧ LeCaR_view s' = ⟨r.id, r.size, 1⟩ :: l1 := by
  obtain ⟨l, a, h, hb, hc⟩ := LeCaR.contract.reach (LeCaR.inv_init cs md adm draws) ho hr
  rw [LeCaR_cached, h.cached_eq, LeCaR.cont_ids] at hn
  obtain ⟨s', l', a', k1, k2, _, _, _, _, _, _, k9⟩ := h.get_miss hb hc r hok hn
  obtain ⟨vs, l1, e1, rfl⟩ := k9 ha
  refine ⟨s', vs, l1, k1, ?_, k2.view_eq⟩
  show EvictsAll cs md _ ⟨LeCaR.view s, s.picks, forget r.id (LeCaR.ghosts s)⟩ vs ⟨l1, s'.picks, LeCaR.ghosts s'⟩
  rw [h.view_eq, h.ghosts_eq, k2.ghosts_eq]; exact e1

/-- The weights change on a miss only: an object in the history of the LRU expert counts against that expert, one in the history of the LFU expert against that one, by the number
of requests since its eviction (see `C53_stamp_LeCaR_partial`); any other object leaves the weights alone. -/
theorem C53_weights_LeCaR_partial (r : Req) (hok : Requests cs md r) (hn : r.id ∉ (LeCaR_cached s).ids) :
    ∃ s', (LeCaR_A R).get s r = .ok (false, s') ∧ s'.base.nReq = s.base.nReq + 1 ∧
      (∀ o ∈ s.base.tbl, o.id = r.id → r.id ∈ (LeCaR_ghosts s).lru.ids → s'.w = R.updLru s.w ((s.base.nReq : Int) + 1 - o.mt.vtime)) ∧
      (∀ o ∈ s.base.tbl, o.id = r.id → r.id ∈ (LeCaR_ghosts s).lfu.ids → s'.w = R.updLfu s.w ((s.base.nReq : Int) + 1 - o.mt.vtime)) ∧
      (r.id ∉ (LeCaR_ghosts s).lru.ids → r.id ∉ (LeCaR_ghosts s).lfu.ids → s'.w = s.w) := by
  obtain ⟨l, a, h, hb, hc⟩ := LeCaR.contract.reach (LeCaR.inv_init cs md adm draws) ho hr
  rw [LeCaR_cached, h.cached_eq, LeCaR.cont_ids] at hn
  obtain ⟨s', l', a', k1, k2, _, _, k5, k6, _⟩ := h.get_miss hb hc r hok hn
  have hst : ∀ o ∈ s.base.tbl, o.id = r.id → LeCaR.stamp s r.id = o.mt.vtime := by
    intro o ho' he
    have := lookup_of_mem h.rep.nodup ho'
    rw [he] at this
    rw [LeCaR.stamp, this]; rfl
  refine ⟨s', k1, k6, ?_, ?_, ?_⟩
  · intro o h1 h2 h3
    have h3 : r.id ∈ (LeCaR.histLru s).ids := h3
    rw [k5, LeCaR.newW, if_pos h3, hst o h1 h2]
  · intro o h1 h2 h3
    have h3 : r.id ∈ (LeCaR.histLfu s).ids := h3
    have h4 : r.id ∉ (LeCaR.histLru s).ids := by
      intro h4
      rw [h.histLru_eq] at h4
      rw [h.histLfu_eq] at h3
      obtain ⟨y, hy, e⟩ := List.mem_map.1 h4
      obtain ⟨z, hz, e'⟩ := List.mem_map.1 h3
      have := (h.rep.unique hy hz (e.trans e'.symm)).1
      cases this
    rw [k5, LeCaR.newW, if_neg h4, if_pos h3, hst o h1 h2]
  · intro h1 h2
    have h1 : r.id ∉ (LeCaR.histLru s).ids := h1
    have h2 : r.id ∉ (LeCaR.histLfu s).ids := h2
    rw [k5, LeCaR.newW, if_neg h1, if_neg h2]

omit ho hr in
/-- The stamps: after any call, a ghost has the expert and the eviction time it had before the call, or its eviction time is now (in 40 bits). -/
theorem C53_stamp_LeCaR_partial (op : Op) (b : Bool) (s' : LeCaR.State R) (hs : (LeCaR_A R).step s op = .ok (b, s')) (o' : Obj LeCaR.Meta) (ho' : o' ∈ s'.base.tbl) (hg : o'.mt.ghost = true) :
    (∃ o ∈ s.base.tbl, o.id = o'.id ∧ o.mt.ghost = true ∧ o.mt.vtime = o'.mt.vtime ∧ o.mt.expert = o'.mt.expert) ∨ o'.mt.vtime = Int.bmod s'.base.nReq (2 ^ 40) :=
  LeCaR.step_kept _ hs o' ho' hg

/-- `evict` called by the client on a cache that is not empty: one choice. -/
theorem C53_victim_LeCaR_partial (r : Req) (hne : LeCaR_cached s ≠ []) :
    ∃ s' v e, (LeCaR_A R).evict s r = .ok s' ∧ Chooses (R.lruWins s.w) (LeCaR_view s) s.picks v e (LeCaR_view s') s'.picks ∧
      Remembers cs md (LeCaR_ghosts s) v.entry e (LeCaR_ghosts s') ∧ s'.w = s.w := by
  obtain ⟨l, a, h, hb, hc⟩ := LeCaR.contract.reach (LeCaR.inv_init cs md adm draws) ho hr
  have hl : l ≠ [] := by rintro rfl; exact hne h.cached_eq
  obtain ⟨s', a', v, e, e1, e2, e3, e4, e5, e6, _⟩ := h.evict hl (by rw [hc]; omega)
  refine ⟨s', v, e, e1, ?_, ?_, e6⟩
  · show Chooses _ (LeCaR.view s) _ v e (LeCaR.view s') _
    rw [h.view_eq, e3.view_eq]; exact e4
  · show Remembers cs md (LeCaR.ghosts s) _ e (LeCaR.ghosts s')
    rw [h.ghosts_eq, e3.ghosts_eq]; exact e5.remembers

/-- Each history holds at most half of the cache size, no object is in two places, and the byte counters of the histories are right. -/
theorem C53_histories_LeCaR_partial : bytes md (LeCaR_ghosts s).lru ≤ cs / 2 ∧ bytes md (LeCaR_ghosts s).lfu ≤ cs / 2 ∧
    (∀ id, id ∈ (LeCaR_cached s).ids → id ∉ (LeCaR_ghosts s).lru.ids ∧ id ∉ (LeCaR_ghosts s).lfu.ids ∧ ∀ n, ¬ (LeCaR_ghosts s).both (id, n)) ∧
    (∀ id, id ∈ (LeCaR_ghosts s).lru.ids → id ∉ (LeCaR_ghosts s).lfu.ids ∧ ∀ n, ¬ (LeCaR_ghosts s).both (id, n)) ∧
    (∀ id, id ∈ (LeCaR_ghosts s).lfu.ids → ∀ n, ¬ (LeCaR_ghosts s).both (id, n)) ∧
    s.lruB = (bytes md (LeCaR_ghosts s).lru : Nat) ∧ s.lfuB = (bytes md (LeCaR_ghosts s).lfu : Nat) := by
  obtain ⟨l, a, h, hb, hc⟩ := LeCaR.contract.reach (LeCaR.inv_init cs md adm draws) ho hr
  simp only [LeCaR_ghosts, LeCaR_cached, h.ghosts_eq, h.cached_eq, ← h.aq, bytes_eq_charge]
  have two : ∀ {j k : LeCaR.Kind}, j ≠ k → ∀ {id : ObjId}, id ∈ (a j).ids → ∀ n, (id, n) ∉ a k := by
    intro j k hjk id hj n hk
    obtain ⟨y, hy, rfl⟩ := List.mem_map.1 hj
    exact hjk (h.rep.unique hy hk rfl).1
  have two' : ∀ {j k : LeCaR.Kind}, j ≠ k → ∀ {id : ObjId}, id ∈ (a j).ids → id ∉ (a k).ids := by
    intro j k hjk id hj hk
    obtain ⟨y, hy, e⟩ := List.mem_map.1 hk
    obtain ⟨y1, y2⟩ := y
    simp only at e
    subst e
    exact two hjk hj y2 hy
  exact ⟨hb.1, hb.2, fun id hi => ⟨two' (by decide) hi, two' (by decide) hi, two (by decide) hi⟩, fun id hi => ⟨two' (by decide) hi, two (by decide) hi⟩,
    fun id hi => two (by decide) hi, h.lruB, h.lfuB⟩

end

/-- The access counter of the C code has 23 bits, of which one is the sign.  In runs of fewer than 2^22 - 1 calls it does not overflow: the program does what the theorems above say. -/
theorem C53_counter_LeCaR_partial (R : LeCaR.Arith) (cs md : Nat) (adm : Adm) (draws : List Nat) (ops : List Op) (hl : ops.length < 2 ^ 22 - 1) (ho : ∀ op ∈ ops, Calls getFindEvict (Requests cs md) op) :
    (LeCaR.algo R LeCaR.Counter.field).run (LeCaR.init R cs md adm draws) ops = (LeCaR_A R).run (LeCaR.init R cs md adm draws) ops := by
  refine LeCaR.run_field ops 0 _ (LeCaR.inv_init cs md adm draws) ?_ (by omega) ho
  intro x hx
  cases hx

/-! concrete cases of the C53 theorems -/

/-- a hit, a request for a ghost of the LFU expert with an eviction by the LRU expert, and a request for a ghost of neither -/
example : 7 ∈ (LeCaR_cached LeCaR_demo).ids ∧ 6 ∈ (LeCaR_ghosts LeCaR_demo).lfu.ids ∧ admitsBase LeCaR_demo.base ⟨6, 2, -2⟩ = true ∧
    LeCaR_view (after LeCaR_X LeCaR_demo [.get ⟨7, 2, -2⟩]) = [⟨7, 2, 2⟩, ⟨1, 1, 4⟩] ∧
    LeCaR_view (after LeCaR_X LeCaR_demo [.get ⟨6, 2, -2⟩]) = [⟨6, 2, 1⟩, ⟨1, 1, 4⟩] ∧ (id (after LeCaR_X LeCaR_demo [.get ⟨6, 2, -2⟩]).w : Nat) = 60 ∧
    LeCaR_view (after LeCaR_X LeCaR_demo [.get ⟨3, 1, -2⟩]) = [⟨3, 1, 1⟩, ⟨1, 1, 4⟩, ⟨7, 2, 1⟩] ∧ (id (after LeCaR_X LeCaR_demo [.get ⟨3, 1, -2⟩]).w : Nat) = 50 := by
  refine ⟨?_, ?_, ?_, ?_, ?_, ?_, ?_, ?_⟩ <;> decide +kernel

/-! ## What goes wrong -/

/-- C07 and C09 fail for `remove` of an object that has been evicted but is remembered: it is unlinked from a list it is not on. -/
theorem C09_safe_fails_LeCaR_removeGhost : faultOf LeCaR_X (LeCaR_x0 2 []) [.get ⟨1, 1, -2⟩, .get ⟨2, 1, -2⟩, .get ⟨3, 1, -2⟩, .remove 1] = some .notLinked ∧
    LeCaR_cached (after LeCaR_X (LeCaR_x0 2 []) [.get ⟨1, 1, -2⟩, .get ⟨2, 1, -2⟩, .get ⟨3, 1, -2⟩]) = [(3, 1), (2, 1)] := by
  refine ⟨?_, ?_⟩ <;> decide +kernel

/-- C04 and C09 fail for `insert` of an object that is remembered: it is in the hash table twice, and after one copy has been removed, removing the other one crashes. -/
theorem C09_safe_fails_LeCaR_insertGhost :
    (after LeCaR_X (LeCaR_x0 2 []) [.get ⟨1, 1, -2⟩, .get ⟨2, 1, -2⟩, .get ⟨3, 1, -2⟩, .evict ⟨0, 0, 0⟩, .insert ⟨1, 1, -2⟩]).base.tbl.map (·.id) = [1, 3, 2, 1] ∧
    faultOf LeCaR_X (LeCaR_x0 2 []) [.get ⟨1, 1, -2⟩, .get ⟨2, 1, -2⟩, .get ⟨3, 1, -2⟩, .evict ⟨0, 0, 0⟩, .insert ⟨1, 1, -2⟩, .remove 1, .remove 1] = some .notLinked := by
  refine ⟨?_, ?_⟩ <;> decide +kernel

/-- C09 fails for `evict` on an empty cache. -/
theorem C09_safe_fails_LeCaR_evictEmpty : LeCaR_X.evict (LeCaR_x0 2 []) ⟨1, 1, -2⟩ = .error .nullDeref := res_err (by decide +kernel)

/-- C10 fails if the LFU expert wins the draw: `to_evict` names object 2, `evict` then evicts object 1. -/
theorem C10_toEvictPredicts_fails_LeCaR : ∃ s s1 s2, Reaches LeCaR_X (LeCaR_x0 4 [99]) [.get ⟨1, 1, -2⟩, .get ⟨1, 1, -2⟩, .get ⟨2, 1, -2⟩] [false, true, false] s ∧
    LeCaR.toEvict s = .ok (some 2, s1) ∧ Reaches LeCaR_X s1 [.evict ⟨3, 1, -2⟩] [true] s2 ∧ LeCaR_cached s = [(2, 1), (1, 1)] ∧ LeCaR_cached s2 = [(2, 1)] :=
  let s := after LeCaR_X (LeCaR_x0 4 [99]) [.get ⟨1, 1, -2⟩, .get ⟨1, 1, -2⟩, .get ⟨2, 1, -2⟩]
  let s1 := stOf s (LeCaR.toEvict s)
  ⟨s, s1, after LeCaR_X s1 [.evict ⟨3, 1, -2⟩], reaches_after (by decide +kernel), res_ok s (by decide +kernel), reaches_after (by decide +kernel), by decide +kernel, by decide +kernel⟩

/-- C08 fails for ghosts: a request for object 2 that is too large to be admitted makes LeCaR forget the ghost 2 and changes the weights. -/
theorem C08_rejectQuiet_fails_LeCaR : answers LeCaR_X LeCaR_demo [.get ⟨2, 9, -2⟩] = some [false] ∧ admitsBase LeCaR_demo.base ⟨2, 9, -2⟩ = false ∧
    (LeCaR_ghosts LeCaR_demo).lru = [(2, 1)] ∧ (LeCaR_ghosts (after LeCaR_X LeCaR_demo [.get ⟨2, 9, -2⟩])).lru = [] ∧
    (id LeCaR_demo.w : Nat) = 50 ∧ (id (after LeCaR_X LeCaR_demo [.get ⟨2, 9, -2⟩]).w : Nat) = 40 := by
  refine ⟨?_, ?_, ?_, ?_, ?_, ?_⟩ <;> decide +kernel

/-- The two histories are bounded, the memory is not: what both experts evict stays in the hash table until it is requested again.  With a cache for one object, after `n + 1` requests for
different objects all of them are still there. -/
theorem C53_memory_fails_LeCaR (R : LeCaR.Arith) (draws : List Nat) (n : Nat) : ∃ out s, Reaches (LeCaR_A R) (LeCaR.init R 1 0 .none draws) ((List.range (n + 1)).map (fun i => Op.get ⟨i, 1, -2⟩)) out s ∧
    (LeCaR_cached s).length = 1 ∧ ∀ i ≤ n, ∃ o ∈ s.base.tbl, o.id = i := by
  have h0 : LeCaR.Seen 0 (LeCaR.init R 1 0 .none draws) := by
    obtain ⟨l, a, h, hb, hc⟩ := LeCaR.inv_init (R := R) 1 0 .none draws
    have : l = [] := by
      have : (0 : Int) = (l.length : Nat) := h.nObj
      exact List.length_eq_zero_iff.1 (by exact_mod_cast this.symm)
    subst this
    exact ⟨[], a, h, hb, hc, rfl, by simp, by simp, by simp, Or.inl rfl⟩
  obtain ⟨out, s, h1, l, a, hA, _, _, _, _, _, h2, h3⟩ := LeCaR.seen_run (n + 1) 0 h0
  rw [Nat.zero_add] at h2 h3
  refine ⟨out, s, ?_, ?_, ?_⟩
  · rw [List.range_eq_range']; exact h1
  · show (LeCaR.cached s).length = 1
    rw [hA.cached_eq, LeCaR.cont, List.length_map]
    omega
  · intro i hi
    have : ∃ k, (i, 1) ∈ a k := by
      rcases h2 i (by omega) with h | h
      · exact ⟨.q, by rw [hA.aq]; exact h⟩
      · exact ⟨.both, h⟩
    obtain ⟨k, hk⟩ := this
    obtain ⟨o, e1, _⟩ := hA.rep.lookup hk
    exact ⟨o, (lookup_some_mem e1).1, (lookup_some_mem e1).2⟩

end Verif.Props
