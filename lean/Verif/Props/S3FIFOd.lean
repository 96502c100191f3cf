import Verif.Proof.S3FIFOd
import Verif.Props.SLRUv0
import Verif.Props.SLRU
/-!
# Properties of S3FIFOd (libCacheSim/cache/eviction/S3FIFOd.c) with a FIFO, LRU, Clock or Sieve main cache

The statements are those of `Verif/Spec/Cache.lean`, `Verif/Spec/History.lean` and `Verif/Spec/Adapt.lean`.  They hold for every cache size, every initial size
of the small cache up to it, every move-to-main threshold, whatever `S3FIFOd_evict` reads from the object it has just freed (`stale`), and every sequence of
client calls with `FitsMain` requests, where not stated otherwise.  The theorems named `_fails` show what goes wrong outside these bounds.
S3FIFOd keeps no metadata bytes and never asks the admission policy (S3FIFOd.c:515-519); its `to_evict` is an assertion failure (S3FIFOd.c:387-390), so C10 does
not apply to it.  Every eviction from the small cache reads freed memory (S3FIFOd.c:457-460): with that counted as a fault nothing but C09's failure remains.
-/

namespace Verif.Props
open Verif Verif.Spec
set_option linter.unusedVariables false
set_option maxRecDepth 20000

/-- what is cached: the objects of the small cache and of the main cache (`mc` lists those of the main cache) -/
abbrev S3FIFOd_cached {τ : Type} (mc : τ → Contents) (s : S3FIFOd.State τ) : Contents := S3FIFOd.cached mc s

/-- the ids in the small cache, youngest first, each with its hits -/
def S3FIFOd_small {τ : Type} (s : S3FIFOd.State τ) : List (ObjId × Int) := s.fifo.objs.map (fun o => (o.id, o.miscFreq))

/-- the ids in the ghost queue, and among the recent victims of the small and the main cache -/
def S3FIFOd_ghost {τ : Type} (s : S3FIFOd.State τ) : List ObjId := s.ghost.base.cached.ids
def S3FIFOd_smallVictims {τ : Type} (s : S3FIFOd.State τ) : List ObjId := s.fifoEv.base.cached.ids
def S3FIFOd_mainVictims {τ : Type} (s : S3FIFOd.State τ) : List ObjId := s.mainEv.base.cached.ids

/-- the sizes of the small cache, the ghost queue and the main cache -/
def S3FIFOd_shares {τ : Type} (P : S3FIFOd.Part τ) (s : S3FIFOd.State τ) : Adapt.Shares := ⟨s.fifo.base.cacheSize, s.ghostSize, P.algo.cacheSize s.main⟩

/-- the sizes during the next `get` -/
def S3FIFOd_next {τ : Type} (P : S3FIFOd.Part τ) (cs : Nat) (s : S3FIFOd.State τ) : Adapt.Shares :=
  Adapt.next cs (decide (0 < bytes 0 s.mainEv.base.cached)) s.fifoHit s.mainHit (S3FIFOd_shares P s)

/-- the request of object `i` with size `n` -/
def S3FIFOd_r (i n : Nat) : Req := ⟨i, n, -2⟩


/-! ## Main cache: FIFO -/

/-- the objects in the main cache -/
abbrev S3FIFOd_mainFIFO (s : FIFO.State) : Contents := s.base.cached
/-- a new cache of `cs` bytes with `fs` bytes for the small cache -/
abbrev S3FIFOd_newFIFO (cs fs : Nat) (thr : Int) (stale : List (Option Int)) : S3FIFOd.State FIFO.State := S3FIFOd.initFIFO cs fs thr stale false

section
variable (cs fs : Nat) (thr : Int) (stale : List (Option Int)) (p : Perms) (h : fs ≤ cs)
include h

theorem S3FIFOd_invFIFO : S3FIFOd.Inv S3FIFOd.onFIFO S3FIFOd_mainFIFO S3FIFOd.slackQ ⟨cs, fs, thr, stale, h⟩ p (S3FIFOd_newFIFO cs fs thr stale) :=
  S3FIFOd.inv_init S3FIFOd.loose_fifo ⟨cs, fs, thr, stale, h⟩ p (S3FIFOd.slackQ_init _) rfl rfl

theorem C01_capacity_S3FIFOd_FIFO_partial : Capacity (S3FIFOd.algo S3FIFOd.onFIFO) (S3FIFOd_newFIFO cs fs thr stale) (Calls p (Adapt.FitsMain cs fs p)) cs :=
  (S3FIFOd.contract S3FIFOd.loose_fifo ⟨cs, fs, thr, stale, h⟩ p).capacity (S3FIFOd_invFIFO cs fs thr stale p h)

theorem C02_accounting_S3FIFOd_FIFO_partial :
    Accounting (S3FIFOd.algo S3FIFOd.onFIFO) (S3FIFOd_cached S3FIFOd_mainFIFO) (S3FIFOd_newFIFO cs fs thr stale) (Calls p (Adapt.FitsMain cs fs p)) 0 :=
  (S3FIFOd.contract S3FIFOd.loose_fifo ⟨cs, fs, thr, stale, h⟩ p).accounting (S3FIFOd_invFIFO cs fs thr stale p h)

theorem C03_hitIffCached_S3FIFOd_FIFO_partial :
    HitIffCached (S3FIFOd.algo S3FIFOd.onFIFO) (S3FIFOd_cached S3FIFOd_mainFIFO) (S3FIFOd_newFIFO cs fs thr stale) (Calls p (Adapt.FitsMain cs fs p)) :=
  (S3FIFOd.contract S3FIFOd.loose_fifo ⟨cs, fs, thr, stale, h⟩ p).hitIffCached (S3FIFOd_invFIFO cs fs thr stale p h)

/-- What is proved of C04: without client inserts. -/
theorem C04_noPhantom_S3FIFOd_FIFO_partial (hins : p.ins = false) :
    NoPhantom (S3FIFOd.algo S3FIFOd.onFIFO) (S3FIFOd_cached S3FIFOd_mainFIFO) (S3FIFOd_newFIFO cs fs thr stale) (Calls p (Adapt.FitsMain cs fs p)) := by
  refine (S3FIFOd.contract S3FIFOd.loose_fifo ⟨cs, fs, thr, stale, h⟩ p).noPhantom (S3FIFOd_invFIFO cs fs thr stale p h) rfl ?_
  intro _ s s' b id hi he
  obtain ⟨s'', k1, _, _, k3, _⟩ := S3FIFOd.remove_spec S3FIFOd.loose_fifo hi id
  have he' : S3FIFOd.remove S3FIFOd.onFIFO s id = .ok (b, s') := he
  rw [k1] at he'
  injection he' with he'
  injection he' with _ he'
  subst he'
  intro hx
  have := ((k3 hins).map Prod.fst).subset hx
  simp at this

theorem C04_addsOnlyRequested_S3FIFOd_FIFO_partial :
    AddsOnlyRequested (S3FIFOd.algo S3FIFOd.onFIFO) (S3FIFOd_cached S3FIFOd_mainFIFO) (S3FIFOd_newFIFO cs fs thr stale) (Calls p (Adapt.FitsMain cs fs p)) :=
  (S3FIFOd.contract S3FIFOd.loose_fifo ⟨cs, fs, thr, stale, h⟩ p).addsOnlyRequested (S3FIFOd_invFIFO cs fs thr stale p h)

theorem C05_admittedMissCached_S3FIFOd_FIFO_partial :
    AdmittedMissCached (S3FIFOd.algo S3FIFOd.onFIFO) (S3FIFOd_cached S3FIFOd_mainFIFO) (fun s r => decide (r.size ≤ (S3FIFOd_next S3FIFOd.onFIFO cs s).small))
      (S3FIFOd_newFIFO cs fs thr stale) (Calls p (Adapt.FitsMain cs fs p)) := by
  intro ops out s ho hr r hok hn ha
  have hi := (S3FIFOd.contract S3FIFOd.loose_fifo ⟨cs, fs, thr, stale, h⟩ p).reach (S3FIFOd_invFIFO cs fs thr stale p h) ho hr
  obtain ⟨s', k1, _, _, _, _, k6, k7⟩ := S3FIFOd.get_miss S3FIFOd.loose_fifo hi hok hn
  simp only [S3FIFOd_next, bytes_eq_charge] at ha
  have hle := of_decide_eq_true ha
  refine ⟨s', k1, ?_⟩
  by_cases hg : r.id ∈ S3FIFOd.qids s.ghost
  · exact List.mem_append_right _ (k6 hle hg)
  · have hh := (k7 hle hg).1
    refine List.mem_append_left _ (List.mem_map.2 ⟨_, List.mem_of_mem_head? hh, rfl⟩)

/-- What is proved of C06: a hit evicts nothing, a request that is not admitted evicts nothing, and a request for which there is room evicts nothing unless
the object is remembered in the ghost queue. -/
theorem C06_evictOnDemand_S3FIFOd_FIFO_partial (ops : List Op) (out : List Bool) (s : S3FIFOd.State FIFO.State)
    (ho : ∀ op ∈ ops, Calls p (Adapt.FitsMain cs fs p) op) (hr : Reaches (S3FIFOd.algo S3FIFOd.onFIFO) (S3FIFOd_newFIFO cs fs thr stale) ops out s)
    (r : Req) (hok : Adapt.FitsMain cs fs p r) (b : Bool) (s' : S3FIFOd.State FIFO.State) (hg : (S3FIFOd.algo S3FIFOd.onFIFO).get s r = .ok (b, s')) :
    (b = true → (S3FIFOd_cached S3FIFOd_mainFIFO s').Perm (S3FIFOd_cached S3FIFOd_mainFIFO s)) ∧
    (b = false → r.size > (S3FIFOd_next S3FIFOd.onFIFO cs s).small → (S3FIFOd_cached S3FIFOd_mainFIFO s').Perm (S3FIFOd_cached S3FIFOd_mainFIFO s)) ∧
    (b = false → r.size ≤ (S3FIFOd_next S3FIFOd.onFIFO cs s).small → r.id ∉ S3FIFOd_ghost s → bytes 0 (S3FIFOd_cached S3FIFOd_mainFIFO s) + r.size ≤ cs →
      (S3FIFOd_cached S3FIFOd_mainFIFO s').Perm ((r.id, r.size % u32) :: S3FIFOd_cached S3FIFOd_mainFIFO s)) := by
  have hi := (S3FIFOd.contract S3FIFOd.loose_fifo ⟨cs, fs, thr, stale, h⟩ p).reach (S3FIFOd_invFIFO cs fs thr stale p h) ho hr
  have hb := S3FIFOd.get_answer S3FIFOd.loose_fifo hi hok hg
  simp only [S3FIFOd_next, bytes_eq_charge]
  by_cases hin : r.id ∈ (S3FIFOd_cached S3FIFOd_mainFIFO s).ids
  · have hb' : b = true := by rw [hb]; exact decide_eq_true hin
    subst hb'
    exact ⟨fun _ => (S3FIFOd.get_hit_spec S3FIFOd.loose_fifo hi hin hg).1, fun hx => (by cases hx), fun hx => (by cases hx)⟩
  · have hb' : b = false := by rw [hb]; exact decide_eq_false hin
    subst hb'
    obtain ⟨s'', k1, _, _, k4, _, _, k7⟩ := S3FIFOd.get_miss S3FIFOd.loose_fifo hi hok hin
    rw [k1] at hg
    cases hg
    refine ⟨fun hx => (by cases hx), fun _ hx => ?_, fun _ hle hgn hroom => (k7 hle hgn).2 hroom⟩
    obtain ⟨e1, e2⟩ := k4 hx
    unfold S3FIFOd_cached S3FIFOd.cached
    rw [e1]
    exact e2.append_left _

/-- What is proved of C07: without client inserts `remove` removes exactly the object.  Its answer is also `true` for an object of the ghost queue. -/
theorem C07_removeExact_S3FIFOd_FIFO_partial (hins : p.ins = false) (ops : List Op) (out : List Bool) (s : S3FIFOd.State FIFO.State)
    (ho : ∀ op ∈ ops, Calls p (Adapt.FitsMain cs fs p) op) (hr : Reaches (S3FIFOd.algo S3FIFOd.onFIFO) (S3FIFOd_newFIFO cs fs thr stale) ops out s) (id : ObjId) :
    ∃ s', (S3FIFOd.algo S3FIFOd.onFIFO).remove s id = .ok (decide (id ∈ (S3FIFOd_cached S3FIFOd_mainFIFO s).ids ∨ id ∈ S3FIFOd_ghost s), s') ∧
      (S3FIFOd_cached S3FIFOd_mainFIFO s').Perm ((S3FIFOd_cached S3FIFOd_mainFIFO s).filter (fun x => x.1 ≠ id)) := by
  have hi := (S3FIFOd.contract S3FIFOd.loose_fifo ⟨cs, fs, thr, stale, h⟩ p).reach (S3FIFOd_invFIFO cs fs thr stale p h) ho hr
  obtain ⟨s', k1, _, _, k3, _⟩ := S3FIFOd.remove_spec S3FIFOd.loose_fifo hi id
  exact ⟨s', k1, k3 hins⟩

/-- C08: a request that is not admitted leaves the small cache as it is, and the objects of the main cache. -/
theorem C08_rejectQuiet_S3FIFOd_FIFO_partial (ops : List Op) (out : List Bool) (s : S3FIFOd.State FIFO.State)
    (ho : ∀ op ∈ ops, Calls p (Adapt.FitsMain cs fs p) op) (hr : Reaches (S3FIFOd.algo S3FIFOd.onFIFO) (S3FIFOd_newFIFO cs fs thr stale) ops out s)
    (r : Req) (hok : Adapt.FitsMain cs fs p r) (hn : r.id ∉ (S3FIFOd_cached S3FIFOd_mainFIFO s).ids) (hgt : r.size > (S3FIFOd_next S3FIFOd.onFIFO cs s).small) :
    ∃ s', (S3FIFOd.algo S3FIFOd.onFIFO).get s r = .ok (false, s') ∧ S3FIFOd_small s' = S3FIFOd_small s ∧ (S3FIFOd_mainFIFO s'.main).Perm (S3FIFOd_mainFIFO s.main) := by
  have hi := (S3FIFOd.contract S3FIFOd.loose_fifo ⟨cs, fs, thr, stale, h⟩ p).reach (S3FIFOd_invFIFO cs fs thr stale p h) ho hr
  obtain ⟨s', k1, _, _, k4, _⟩ := S3FIFOd.get_miss S3FIFOd.loose_fifo hi hok hn
  simp only [S3FIFOd_next, bytes_eq_charge] at hgt
  obtain ⟨e1, e2⟩ := k4 hgt
  exact ⟨s', k1, by simp only [S3FIFOd_small, e1], e2⟩

theorem C09_safe_S3FIFOd_FIFO_partial : Safe (S3FIFOd.algo S3FIFOd.onFIFO) (S3FIFOd_newFIFO cs fs thr stale) (Calls p (Adapt.FitsMain cs fs p)) :=
  (S3FIFOd.contract S3FIFOd.loose_fifo ⟨cs, fs, thr, stale, h⟩ p).safe (S3FIFOd_invFIFO cs fs thr stale p h)

/-- C82: the sizes of the small and the main cache always add up to the cache size; the ghost queue grows and shrinks with the small cache; neither part falls
below a hundredth of the cache less a step, or its initial size if that is less. -/
theorem C82_sizes_S3FIFOd_FIFO_partial (ops : List Op) (out : List Bool) (s : S3FIFOd.State FIFO.State)
    (ho : ∀ op ∈ ops, Calls p (Adapt.FitsMain cs fs p) op) (hr : Reaches (S3FIFOd.algo S3FIFOd.onFIFO) (S3FIFOd_newFIFO cs fs thr stale) ops out s) :
    (S3FIFOd_shares S3FIFOd.onFIFO s).small + (S3FIFOd_shares S3FIFOd.onFIFO s).main = cs ∧
    (S3FIFOd_shares S3FIFOd.onFIFO s).ghost = cs + (S3FIFOd_shares S3FIFOd.onFIFO s).small - 2 * fs ∧
    min fs (Adapt.floorOf cs) ≤ (S3FIFOd_shares S3FIFOd.onFIFO s).small ∧ min (cs - fs) (Adapt.floorOf cs) ≤ (S3FIFOd_shares S3FIFOd.onFIFO s).main := by
  have hi := (S3FIFOd.contract S3FIFOd.loose_fifo ⟨cs, fs, thr, stale, h⟩ p).reach (S3FIFOd_invFIFO cs fs thr stale p h) ho hr
  exact ⟨hi.sizes.sum, hi.sizes.ghost, hi.sizes.lowF, hi.sizes.lowM⟩

/-- C82: what `get` does to the sizes and to the two counters of requests for recent victims. -/
theorem C82_adapts_S3FIFOd_FIFO_partial (ops : List Op) (out : List Bool) (s : S3FIFOd.State FIFO.State)
    (ho : ∀ op ∈ ops, Calls p (Adapt.FitsMain cs fs p) op) (hr : Reaches (S3FIFOd.algo S3FIFOd.onFIFO) (S3FIFOd_newFIFO cs fs thr stale) ops out s)
    (r : Req) (hok : Adapt.FitsMain cs fs p r) (b : Bool) (s' : S3FIFOd.State FIFO.State) (hg : (S3FIFOd.algo S3FIFOd.onFIFO).get s r = .ok (b, s')) :
    S3FIFOd_shares S3FIFOd.onFIFO s' = S3FIFOd_next S3FIFOd.onFIFO cs s ∧
    s'.fifoHit = (Adapt.age (decide (0 < bytes 0 s.mainEv.base.cached)) s.fifoHit s.mainHit).1 +
      (if r.id ∉ (S3FIFOd_small s).map Prod.fst ∧ r.id ∈ S3FIFOd_smallVictims s then 1 else 0) ∧
    s'.mainHit = (Adapt.age (decide (0 < bytes 0 s.mainEv.base.cached)) s.fifoHit s.mainHit).2 +
      (if r.id ∉ (S3FIFOd_small s).map Prod.fst ∧ r.id ∈ S3FIFOd_mainVictims s then 1 else 0) := by
  have hi := (S3FIFOd.contract S3FIFOd.loose_fifo ⟨cs, fs, thr, stale, h⟩ p).reach (S3FIFOd_invFIFO cs fs thr stale p h) ho hr
  have key : S3FIFOd.gauge S3FIFOd.onFIFO s' = S3FIFOd.nextGauge S3FIFOd.onFIFO ⟨cs, fs, thr, stale, h⟩ s r.id := by
    have hb := S3FIFOd.get_answer S3FIFOd.loose_fifo hi hok hg
    by_cases hin : r.id ∈ (S3FIFOd_cached S3FIFOd_mainFIFO s).ids
    · have hb' : b = true := by rw [hb]; exact decide_eq_true hin
      subst hb'
      exact (S3FIFOd.get_hit_spec S3FIFOd.loose_fifo hi hin hg).2.1
    · have hb' : b = false := by rw [hb]; exact decide_eq_false hin
      subst hb'
      obtain ⟨s'', k1, _, k3, _⟩ := S3FIFOd.get_miss S3FIFOd.loose_fifo hi hok hin
      rw [k1] at hg
      cases hg
      exact k3
  simp only [S3FIFOd_next, bytes_eq_charge, S3FIFOd_small, List.map_map]
  refine ⟨congrArg Prod.fst key, congrArg (fun x => x.2.1) key, congrArg (fun x => x.2.2) key⟩

/-- C82: without client inserts an object is at most once in the small cache, the main cache and the ghost queue taken together. -/
theorem C82_onePart_S3FIFOd_FIFO_partial (hins : p.ins = false) (ops : List Op) (out : List Bool) (s : S3FIFOd.State FIFO.State)
    (ho : ∀ op ∈ ops, Calls p (Adapt.FitsMain cs fs p) op) (hr : Reaches (S3FIFOd.algo S3FIFOd.onFIFO) (S3FIFOd_newFIFO cs fs thr stale) ops out s) :
    ((S3FIFOd_cached S3FIFOd_mainFIFO s).ids ++ S3FIFOd_ghost s).Nodup := by
  have hi := (S3FIFOd.contract S3FIFOd.loose_fifo ⟨cs, fs, thr, stale, h⟩ p).reach (S3FIFOd_invFIFO cs fs thr stale p h) ho hr
  rw [List.nodup_append]
  exact ⟨hi.nodup S3FIFOd.loose_fifo, S3FIFOd.loose_fifo.nodup hi.queues.ghost, fun a ha b hb e => hi.sep hins b hb (by rw [← e]; exact ha)⟩

/-- C82: the hits of an object in the small cache, as counted by the cache, are those the client saw since the object entered the cache. -/
theorem C82_hitsCounted_S3FIFOd_FIFO_partial (ops : List Op) (out : List Bool) (s : S3FIFOd.State FIFO.State)
    (ho : ∀ op ∈ ops, Calls p (Adapt.FitsMain cs fs p) op) (hr : Reaches (S3FIFOd.algo S3FIFOd.onFIFO) (S3FIFOd_newFIFO cs fs thr stale) ops out s) :
    ∀ x ∈ S3FIFOd_small s, x.2 = hitsSince (ops.zip out) x.1 := by
  intro x hx
  obtain ⟨o, hox, rfl⟩ := List.mem_map.1 hx
  exact (S3FIFOd.reach_freq S3FIFOd.loose_fifo (S3FIFOd_invFIFO cs fs thr stale p h) rfl ops out s ho hr).1 o hox

/-- C82: where a missed object that is admitted enters: the main cache if it is remembered in the ghost queue, else the front of the small cache, with no hits. -/
theorem C82_placed_S3FIFOd_FIFO_partial (ops : List Op) (out : List Bool) (s : S3FIFOd.State FIFO.State)
    (ho : ∀ op ∈ ops, Calls p (Adapt.FitsMain cs fs p) op) (hr : Reaches (S3FIFOd.algo S3FIFOd.onFIFO) (S3FIFOd_newFIFO cs fs thr stale) ops out s)
    (r : Req) (hok : Adapt.FitsMain cs fs p r) (hn : r.id ∉ (S3FIFOd_cached S3FIFOd_mainFIFO s).ids) (hle : r.size ≤ (S3FIFOd_next S3FIFOd.onFIFO cs s).small) :
    ∃ s', (S3FIFOd.algo S3FIFOd.onFIFO).get s r = .ok (false, s') ∧
      (r.id ∈ S3FIFOd_ghost s → (r.id, r.size % u32) ∈ S3FIFOd_mainFIFO s'.main) ∧ (r.id ∉ S3FIFOd_ghost s → (S3FIFOd_small s').head? = some (r.id, 0)) := by
  have hi := (S3FIFOd.contract S3FIFOd.loose_fifo ⟨cs, fs, thr, stale, h⟩ p).reach (S3FIFOd_invFIFO cs fs thr stale p h) ho hr
  obtain ⟨s', k1, _, _, _, _, k6, k7⟩ := S3FIFOd.get_miss S3FIFOd.loose_fifo hi hok hn
  simp only [S3FIFOd_next, bytes_eq_charge] at hle
  refine ⟨s', k1, k6 hle, fun hx => ?_⟩
  have e := (k7 hle hx).1
  simp only [S3FIFOd_small, List.head?_map, e]
  rfl

/-- C82: whom `evict` takes.  If the small cache holds no bytes, the victim the main cache names.  Otherwise the oldest object of the small cache leaves it.  With
at least `thr` hits it moves to the main cache, which then evicts until it is within its size again, and no further.  With fewer hits it leaves the cache, and is
remembered in the ghost queue and among the small cache's recent victims, as far as it fits there.  (This needs the freed object to be still readable: `stale = []`.) -/
theorem C82_victim_S3FIFOd_FIFO_partial (hst : stale = []) (ops : List Op) (out : List Bool) (s : S3FIFOd.State FIFO.State)
    (ho : ∀ op ∈ ops, Calls p (Adapt.FitsMain cs fs p) op) (hr : Reaches (S3FIFOd.algo S3FIFOd.onFIFO) (S3FIFOd_newFIFO cs fs thr stale) ops out s)
    (hpos : 0 < bytes 0 (S3FIFOd_cached S3FIFOd_mainFIFO s)) (r : Req) :
    ∃ s' vs, (S3FIFOd.algo S3FIFOd.onFIFO).evict s r = .ok s' ∧ (S3FIFOd_cached S3FIFOd_mainFIFO s).Perm (vs ++ S3FIFOd_cached S3FIFOd_mainFIFO s') ∧
    (bytes 0 (cont s.fifo.objs) = 0 → S3FIFOd_small s' = S3FIFOd_small s ∧ S3FIFOd_ghost s' = S3FIFOd_ghost s ∧
      ∃ v, S3FIFOd.onFIFO.victim s.main = some v ∧ vs = [(v.id, v.size)] ∧ (v.size ≤ cs / 10 → v.id ∈ S3FIFOd_mainVictims s')) ∧
    (bytes 0 (cont s.fifo.objs) ≠ 0 → ∃ o, s.fifo.objs = s'.fifo.objs ++ [o] ∧
      (thr ≤ o.miscFreq → S3FIFOd_ghost s' = S3FIFOd_ghost s ∧ (vs ++ S3FIFOd_mainFIFO s'.main).Perm ((o.id, o.size) :: S3FIFOd_mainFIFO s.main) ∧
        bytes 0 (S3FIFOd_mainFIFO s'.main) ≤ (S3FIFOd_shares S3FIFOd.onFIFO s).main ∧
        ∀ us v, vs = us ++ [v] → bytes 0 (v :: S3FIFOd_mainFIFO s'.main) > (S3FIFOd_shares S3FIFOd.onFIFO s).main) ∧
      (o.miscFreq < thr → vs = [(o.id, o.size)] ∧ s'.main = s.main ∧ ((o.size : Int) ≤ (S3FIFOd_shares S3FIFOd.onFIFO s).ghost → o.id ∈ S3FIFOd_ghost s') ∧
        (o.size ≤ cs / 10 → o.id ∈ S3FIFOd_smallVictims s'))) := by
  have hi := (S3FIFOd.contract S3FIFOd.loose_fifo ⟨cs, fs, thr, stale, h⟩ p).reach (S3FIFOd_invFIFO cs fs thr stale p h) ho hr
  simp only [bytes_eq_charge] at hpos ⊢
  have hsr : ∀ o : Obj Unit, S3FIFOd.staleRead s o = o.miscFreq := by
    intro o
    have := hi.stale hst
    simp [S3FIFOd.staleRead, this]
  obtain ⟨s', vs, k1, _, k3, _, _, _, _, _, _, _, k11, k12⟩ := S3FIFOd.evict_spec S3FIFOd.loose_fifo hi hpos r
  by_cases hz : charge 0 (cont s.fifo.objs) = 0
  · obtain ⟨e1, e2, v, e3, e4, e5⟩ := k11 hz
    refine ⟨s', [(v.id, v.size)], k1, ?_, fun _ => ⟨by simp only [S3FIFOd_small, e1], by simp only [S3FIFOd_ghost, e2], v, e3, rfl, e5⟩, fun hx => absurd hz hx⟩
    unfold S3FIFOd_cached S3FIFOd.cached
    rw [e1]
    exact (e4.append_left _).trans List.perm_middle
  · obtain ⟨o, e1, e2, e3⟩ := k12 hz
    rw [hsr] at e2 e3
    refine ⟨s', vs, k1, k3, fun hx => absurd hx hz, fun _ => ⟨o, e1, fun hx => ?_, e3⟩⟩
    obtain ⟨f1, f2, f3, f4⟩ := e2 hx
    exact ⟨by simp only [S3FIFOd_ghost, f1], f2, f3, f4⟩

end

/-! ## Main cache: LRU -/

/-- the objects in the main cache -/
abbrev S3FIFOd_mainLRU (s : LRU.State) : Contents := s.base.cached
/-- a new cache of `cs` bytes with `fs` bytes for the small cache -/
abbrev S3FIFOd_newLRU (cs fs : Nat) (thr : Int) (stale : List (Option Int)) : S3FIFOd.State LRU.State := S3FIFOd.initLRU cs fs thr stale false

section
variable (cs fs : Nat) (thr : Int) (stale : List (Option Int)) (p : Perms) (h : fs ≤ cs)
include h

theorem S3FIFOd_invLRU : S3FIFOd.Inv S3FIFOd.onLRU S3FIFOd_mainLRU S3FIFOd.slackQ ⟨cs, fs, thr, stale, h⟩ p (S3FIFOd_newLRU cs fs thr stale) :=
  S3FIFOd.inv_init S3FIFOd.loose_lru ⟨cs, fs, thr, stale, h⟩ p (S3FIFOd.slackQ_init _) rfl rfl

theorem C01_capacity_S3FIFOd_LRU_partial : Capacity (S3FIFOd.algo S3FIFOd.onLRU) (S3FIFOd_newLRU cs fs thr stale) (Calls p (Adapt.FitsMain cs fs p)) cs :=
  (S3FIFOd.contract S3FIFOd.loose_lru ⟨cs, fs, thr, stale, h⟩ p).capacity (S3FIFOd_invLRU cs fs thr stale p h)

theorem C02_accounting_S3FIFOd_LRU_partial :
    Accounting (S3FIFOd.algo S3FIFOd.onLRU) (S3FIFOd_cached S3FIFOd_mainLRU) (S3FIFOd_newLRU cs fs thr stale) (Calls p (Adapt.FitsMain cs fs p)) 0 :=
  (S3FIFOd.contract S3FIFOd.loose_lru ⟨cs, fs, thr, stale, h⟩ p).accounting (S3FIFOd_invLRU cs fs thr stale p h)

theorem C03_hitIffCached_S3FIFOd_LRU_partial :
    HitIffCached (S3FIFOd.algo S3FIFOd.onLRU) (S3FIFOd_cached S3FIFOd_mainLRU) (S3FIFOd_newLRU cs fs thr stale) (Calls p (Adapt.FitsMain cs fs p)) :=
  (S3FIFOd.contract S3FIFOd.loose_lru ⟨cs, fs, thr, stale, h⟩ p).hitIffCached (S3FIFOd_invLRU cs fs thr stale p h)

/-- What is proved of C04: without client inserts. -/
theorem C04_noPhantom_S3FIFOd_LRU_partial (hins : p.ins = false) :
    NoPhantom (S3FIFOd.algo S3FIFOd.onLRU) (S3FIFOd_cached S3FIFOd_mainLRU) (S3FIFOd_newLRU cs fs thr stale) (Calls p (Adapt.FitsMain cs fs p)) := by
  refine (S3FIFOd.contract S3FIFOd.loose_lru ⟨cs, fs, thr, stale, h⟩ p).noPhantom (S3FIFOd_invLRU cs fs thr stale p h) rfl ?_
  intro _ s s' b id hi he
  obtain ⟨s'', k1, _, _, k3, _⟩ := S3FIFOd.remove_spec S3FIFOd.loose_lru hi id
  have he' : S3FIFOd.remove S3FIFOd.onLRU s id = .ok (b, s') := he
  rw [k1] at he'
  injection he' with he'
  injection he' with _ he'
  subst he'
  intro hx
  have := ((k3 hins).map Prod.fst).subset hx
  simp at this

theorem C04_addsOnlyRequested_S3FIFOd_LRU_partial :
    AddsOnlyRequested (S3FIFOd.algo S3FIFOd.onLRU) (S3FIFOd_cached S3FIFOd_mainLRU) (S3FIFOd_newLRU cs fs thr stale) (Calls p (Adapt.FitsMain cs fs p)) :=
  (S3FIFOd.contract S3FIFOd.loose_lru ⟨cs, fs, thr, stale, h⟩ p).addsOnlyRequested (S3FIFOd_invLRU cs fs thr stale p h)

theorem C05_admittedMissCached_S3FIFOd_LRU_partial :
    AdmittedMissCached (S3FIFOd.algo S3FIFOd.onLRU) (S3FIFOd_cached S3FIFOd_mainLRU) (fun s r => decide (r.size ≤ (S3FIFOd_next S3FIFOd.onLRU cs s).small))
      (S3FIFOd_newLRU cs fs thr stale) (Calls p (Adapt.FitsMain cs fs p)) := by
  intro ops out s ho hr r hok hn ha
  have hi := (S3FIFOd.contract S3FIFOd.loose_lru ⟨cs, fs, thr, stale, h⟩ p).reach (S3FIFOd_invLRU cs fs thr stale p h) ho hr
  obtain ⟨s', k1, _, _, _, _, k6, k7⟩ := S3FIFOd.get_miss S3FIFOd.loose_lru hi hok hn
  simp only [S3FIFOd_next, bytes_eq_charge] at ha
  have hle := of_decide_eq_true ha
  refine ⟨s', k1, ?_⟩
  by_cases hg : r.id ∈ S3FIFOd.qids s.ghost
  · exact List.mem_append_right _ (k6 hle hg)
  · have hh := (k7 hle hg).1
    refine List.mem_append_left _ (List.mem_map.2 ⟨_, List.mem_of_mem_head? hh, rfl⟩)

/-- What is proved of C06: a hit evicts nothing, a request that is not admitted evicts nothing, and a request for which there is room evicts nothing unless
the object is remembered in the ghost queue. -/
theorem C06_evictOnDemand_S3FIFOd_LRU_partial (ops : List Op) (out : List Bool) (s : S3FIFOd.State LRU.State)
    (ho : ∀ op ∈ ops, Calls p (Adapt.FitsMain cs fs p) op) (hr : Reaches (S3FIFOd.algo S3FIFOd.onLRU) (S3FIFOd_newLRU cs fs thr stale) ops out s)
    (r : Req) (hok : Adapt.FitsMain cs fs p r) (b : Bool) (s' : S3FIFOd.State LRU.State) (hg : (S3FIFOd.algo S3FIFOd.onLRU).get s r = .ok (b, s')) :
    (b = true → (S3FIFOd_cached S3FIFOd_mainLRU s').Perm (S3FIFOd_cached S3FIFOd_mainLRU s)) ∧
    (b = false → r.size > (S3FIFOd_next S3FIFOd.onLRU cs s).small → (S3FIFOd_cached S3FIFOd_mainLRU s').Perm (S3FIFOd_cached S3FIFOd_mainLRU s)) ∧
    (b = false → r.size ≤ (S3FIFOd_next S3FIFOd.onLRU cs s).small → r.id ∉ S3FIFOd_ghost s → bytes 0 (S3FIFOd_cached S3FIFOd_mainLRU s) + r.size ≤ cs →
      (S3FIFOd_cached S3FIFOd_mainLRU s').Perm ((r.id, r.size % u32) :: S3FIFOd_cached S3FIFOd_mainLRU s)) := by
  have hi := (S3FIFOd.contract S3FIFOd.loose_lru ⟨cs, fs, thr, stale, h⟩ p).reach (S3FIFOd_invLRU cs fs thr stale p h) ho hr
  have hb := S3FIFOd.get_answer S3FIFOd.loose_lru hi hok hg
  simp only [S3FIFOd_next, bytes_eq_charge]
  by_cases hin : r.id ∈ (S3FIFOd_cached S3FIFOd_mainLRU s).ids
  · have hb' : b = true := by rw [hb]; exact decide_eq_true hin
    subst hb'
    exact ⟨fun _ => (S3FIFOd.get_hit_spec S3FIFOd.loose_lru hi hin hg).1, fun hx => (by cases hx), fun hx => (by cases hx)⟩
  · have hb' : b = false := by rw [hb]; exact decide_eq_false hin
    subst hb'
    obtain ⟨s'', k1, _, _, k4, _, _, k7⟩ := S3FIFOd.get_miss S3FIFOd.loose_lru hi hok hin
    rw [k1] at hg
    cases hg
    refine ⟨fun hx => (by cases hx), fun _ hx => ?_, fun _ hle hgn hroom => (k7 hle hgn).2 hroom⟩
    obtain ⟨e1, e2⟩ := k4 hx
    unfold S3FIFOd_cached S3FIFOd.cached
    rw [e1]
    exact e2.append_left _

/-- What is proved of C07: without client inserts `remove` removes exactly the object.  Its answer is also `true` for an object of the ghost queue. -/
theorem C07_removeExact_S3FIFOd_LRU_partial (hins : p.ins = false) (ops : List Op) (out : List Bool) (s : S3FIFOd.State LRU.State)
    (ho : ∀ op ∈ ops, Calls p (Adapt.FitsMain cs fs p) op) (hr : Reaches (S3FIFOd.algo S3FIFOd.onLRU) (S3FIFOd_newLRU cs fs thr stale) ops out s) (id : ObjId) :
    ∃ s', (S3FIFOd.algo S3FIFOd.onLRU).remove s id = .ok (decide (id ∈ (S3FIFOd_cached S3FIFOd_mainLRU s).ids ∨ id ∈ S3FIFOd_ghost s), s') ∧
      (S3FIFOd_cached S3FIFOd_mainLRU s').Perm ((S3FIFOd_cached S3FIFOd_mainLRU s).filter (fun x => x.1 ≠ id)) := by
  have hi := (S3FIFOd.contract S3FIFOd.loose_lru ⟨cs, fs, thr, stale, h⟩ p).reach (S3FIFOd_invLRU cs fs thr stale p h) ho hr
  obtain ⟨s', k1, _, _, k3, _⟩ := S3FIFOd.remove_spec S3FIFOd.loose_lru hi id
  exact ⟨s', k1, k3 hins⟩

/-- C08: a request that is not admitted leaves the small cache as it is, and the objects of the main cache. -/
theorem C08_rejectQuiet_S3FIFOd_LRU_partial (ops : List Op) (out : List Bool) (s : S3FIFOd.State LRU.State)
    (ho : ∀ op ∈ ops, Calls p (Adapt.FitsMain cs fs p) op) (hr : Reaches (S3FIFOd.algo S3FIFOd.onLRU) (S3FIFOd_newLRU cs fs thr stale) ops out s)
    (r : Req) (hok : Adapt.FitsMain cs fs p r) (hn : r.id ∉ (S3FIFOd_cached S3FIFOd_mainLRU s).ids) (hgt : r.size > (S3FIFOd_next S3FIFOd.onLRU cs s).small) :
    ∃ s', (S3FIFOd.algo S3FIFOd.onLRU).get s r = .ok (false, s') ∧ S3FIFOd_small s' = S3FIFOd_small s ∧ (S3FIFOd_mainLRU s'.main).Perm (S3FIFOd_mainLRU s.main) := by
  have hi := (S3FIFOd.contract S3FIFOd.loose_lru ⟨cs, fs, thr, stale, h⟩ p).reach (S3FIFOd_invLRU cs fs thr stale p h) ho hr
  obtain ⟨s', k1, _, _, k4, _⟩ := S3FIFOd.get_miss S3FIFOd.loose_lru hi hok hn
  simp only [S3FIFOd_next, bytes_eq_charge] at hgt
  obtain ⟨e1, e2⟩ := k4 hgt
  exact ⟨s', k1, by simp only [S3FIFOd_small, e1], e2⟩

theorem C09_safe_S3FIFOd_LRU_partial : Safe (S3FIFOd.algo S3FIFOd.onLRU) (S3FIFOd_newLRU cs fs thr stale) (Calls p (Adapt.FitsMain cs fs p)) :=
  (S3FIFOd.contract S3FIFOd.loose_lru ⟨cs, fs, thr, stale, h⟩ p).safe (S3FIFOd_invLRU cs fs thr stale p h)

/-- C82: the sizes of the small and the main cache always add up to the cache size; the ghost queue grows and shrinks with the small cache; neither part falls
below a hundredth of the cache less a step, or its initial size if that is less. -/
theorem C82_sizes_S3FIFOd_LRU_partial (ops : List Op) (out : List Bool) (s : S3FIFOd.State LRU.State)
    (ho : ∀ op ∈ ops, Calls p (Adapt.FitsMain cs fs p) op) (hr : Reaches (S3FIFOd.algo S3FIFOd.onLRU) (S3FIFOd_newLRU cs fs thr stale) ops out s) :
    (S3FIFOd_shares S3FIFOd.onLRU s).small + (S3FIFOd_shares S3FIFOd.onLRU s).main = cs ∧
    (S3FIFOd_shares S3FIFOd.onLRU s).ghost = cs + (S3FIFOd_shares S3FIFOd.onLRU s).small - 2 * fs ∧
    min fs (Adapt.floorOf cs) ≤ (S3FIFOd_shares S3FIFOd.onLRU s).small ∧ min (cs - fs) (Adapt.floorOf cs) ≤ (S3FIFOd_shares S3FIFOd.onLRU s).main := by
  have hi := (S3FIFOd.contract S3FIFOd.loose_lru ⟨cs, fs, thr, stale, h⟩ p).reach (S3FIFOd_invLRU cs fs thr stale p h) ho hr
  exact ⟨hi.sizes.sum, hi.sizes.ghost, hi.sizes.lowF, hi.sizes.lowM⟩

/-- C82: what `get` does to the sizes and to the two counters of requests for recent victims. -/
theorem C82_adapts_S3FIFOd_LRU_partial (ops : List Op) (out : List Bool) (s : S3FIFOd.State LRU.State)
    (ho : ∀ op ∈ ops, Calls p (Adapt.FitsMain cs fs p) op) (hr : Reaches (S3FIFOd.algo S3FIFOd.onLRU) (S3FIFOd_newLRU cs fs thr stale) ops out s)
    (r : Req) (hok : Adapt.FitsMain cs fs p r) (b : Bool) (s' : S3FIFOd.State LRU.State) (hg : (S3FIFOd.algo S3FIFOd.onLRU).get s r = .ok (b, s')) :
    S3FIFOd_shares S3FIFOd.onLRU s' = S3FIFOd_next S3FIFOd.onLRU cs s ∧
    s'.fifoHit = (Adapt.age (decide (0 < bytes 0 s.mainEv.base.cached)) s.fifoHit s.mainHit).1 +
      (if r.id ∉ (S3FIFOd_small s).map Prod.fst ∧ r.id ∈ S3FIFOd_smallVictims s then 1 else 0) ∧
    s'.mainHit = (Adapt.age (decide (0 < bytes 0 s.mainEv.base.cached)) s.fifoHit s.mainHit).2 +
      (if r.id ∉ (S3FIFOd_small s).map Prod.fst ∧ r.id ∈ S3FIFOd_mainVictims s then 1 else 0) := by
  have hi := (S3FIFOd.contract S3FIFOd.loose_lru ⟨cs, fs, thr, stale, h⟩ p).reach (S3FIFOd_invLRU cs fs thr stale p h) ho hr
  have key : S3FIFOd.gauge S3FIFOd.onLRU s' = S3FIFOd.nextGauge S3FIFOd.onLRU ⟨cs, fs, thr, stale, h⟩ s r.id := by
    have hb := S3FIFOd.get_answer S3FIFOd.loose_lru hi hok hg
    by_cases hin : r.id ∈ (S3FIFOd_cached S3FIFOd_mainLRU s).ids
    · have hb' : b = true := by rw [hb]; exact decide_eq_true hin
      subst hb'
      exact (S3FIFOd.get_hit_spec S3FIFOd.loose_lru hi hin hg).2.1
    · have hb' : b = false := by rw [hb]; exact decide_eq_false hin
      subst hb'
      obtain ⟨s'', k1, _, k3, _⟩ := S3FIFOd.get_miss S3FIFOd.loose_lru hi hok hin
      rw [k1] at hg
      cases hg
      exact k3
  simp only [S3FIFOd_next, bytes_eq_charge, S3FIFOd_small, List.map_map]
  refine ⟨congrArg Prod.fst key, congrArg (fun x => x.2.1) key, congrArg (fun x => x.2.2) key⟩

/-- C82: without client inserts an object is at most once in the small cache, the main cache and the ghost queue taken together. -/
theorem C82_onePart_S3FIFOd_LRU_partial (hins : p.ins = false) (ops : List Op) (out : List Bool) (s : S3FIFOd.State LRU.State)
    (ho : ∀ op ∈ ops, Calls p (Adapt.FitsMain cs fs p) op) (hr : Reaches (S3FIFOd.algo S3FIFOd.onLRU) (S3FIFOd_newLRU cs fs thr stale) ops out s) :
    ((S3FIFOd_cached S3FIFOd_mainLRU s).ids ++ S3FIFOd_ghost s).Nodup := by
  have hi := (S3FIFOd.contract S3FIFOd.loose_lru ⟨cs, fs, thr, stale, h⟩ p).reach (S3FIFOd_invLRU cs fs thr stale p h) ho hr
  rw [List.nodup_append]
  exact ⟨hi.nodup S3FIFOd.loose_lru, S3FIFOd.loose_fifo.nodup hi.queues.ghost, fun a ha b hb e => hi.sep hins b hb (by rw [← e]; exact ha)⟩

/-- C82: the hits of an object in the small cache, as counted by the cache, are those the client saw since the object entered the cache. -/
theorem C82_hitsCounted_S3FIFOd_LRU_partial (ops : List Op) (out : List Bool) (s : S3FIFOd.State LRU.State)
    (ho : ∀ op ∈ ops, Calls p (Adapt.FitsMain cs fs p) op) (hr : Reaches (S3FIFOd.algo S3FIFOd.onLRU) (S3FIFOd_newLRU cs fs thr stale) ops out s) :
    ∀ x ∈ S3FIFOd_small s, x.2 = hitsSince (ops.zip out) x.1 := by
  intro x hx
  obtain ⟨o, hox, rfl⟩ := List.mem_map.1 hx
  exact (S3FIFOd.reach_freq S3FIFOd.loose_lru (S3FIFOd_invLRU cs fs thr stale p h) rfl ops out s ho hr).1 o hox

/-- C82: where a missed object that is admitted enters: the main cache if it is remembered in the ghost queue, else the front of the small cache, with no hits. -/
theorem C82_placed_S3FIFOd_LRU_partial (ops : List Op) (out : List Bool) (s : S3FIFOd.State LRU.State)
    (ho : ∀ op ∈ ops, Calls p (Adapt.FitsMain cs fs p) op) (hr : Reaches (S3FIFOd.algo S3FIFOd.onLRU) (S3FIFOd_newLRU cs fs thr stale) ops out s)
    (r : Req) (hok : Adapt.FitsMain cs fs p r) (hn : r.id ∉ (S3FIFOd_cached S3FIFOd_mainLRU s).ids) (hle : r.size ≤ (S3FIFOd_next S3FIFOd.onLRU cs s).small) :
    ∃ s', (S3FIFOd.algo S3FIFOd.onLRU).get s r = .ok (false, s') ∧
      (r.id ∈ S3FIFOd_ghost s → (r.id, r.size % u32) ∈ S3FIFOd_mainLRU s'.main) ∧ (r.id ∉ S3FIFOd_ghost s → (S3FIFOd_small s').head? = some (r.id, 0)) := by
  have hi := (S3FIFOd.contract S3FIFOd.loose_lru ⟨cs, fs, thr, stale, h⟩ p).reach (S3FIFOd_invLRU cs fs thr stale p h) ho hr
  obtain ⟨s', k1, _, _, _, _, k6, k7⟩ := S3FIFOd.get_miss S3FIFOd.loose_lru hi hok hn
  simp only [S3FIFOd_next, bytes_eq_charge] at hle
  refine ⟨s', k1, k6 hle, fun hx => ?_⟩
  have e := (k7 hle hx).1
  simp only [S3FIFOd_small, List.head?_map, e]
  rfl

/-- C82: whom `evict` takes.  If the small cache holds no bytes, the victim the main cache names.  Otherwise the oldest object of the small cache leaves it.  With
at least `thr` hits it moves to the main cache, which then evicts until it is within its size again, and no further.  With fewer hits it leaves the cache, and is
remembered in the ghost queue and among the small cache's recent victims, as far as it fits there.  (This needs the freed object to be still readable: `stale = []`.) -/
theorem C82_victim_S3FIFOd_LRU_partial (hst : stale = []) (ops : List Op) (out : List Bool) (s : S3FIFOd.State LRU.State)
    (ho : ∀ op ∈ ops, Calls p (Adapt.FitsMain cs fs p) op) (hr : Reaches (S3FIFOd.algo S3FIFOd.onLRU) (S3FIFOd_newLRU cs fs thr stale) ops out s)
    (hpos : 0 < bytes 0 (S3FIFOd_cached S3FIFOd_mainLRU s)) (r : Req) :
    ∃ s' vs, (S3FIFOd.algo S3FIFOd.onLRU).evict s r = .ok s' ∧ (S3FIFOd_cached S3FIFOd_mainLRU s).Perm (vs ++ S3FIFOd_cached S3FIFOd_mainLRU s') ∧
    (bytes 0 (cont s.fifo.objs) = 0 → S3FIFOd_small s' = S3FIFOd_small s ∧ S3FIFOd_ghost s' = S3FIFOd_ghost s ∧
      ∃ v, S3FIFOd.onLRU.victim s.main = some v ∧ vs = [(v.id, v.size)] ∧ (v.size ≤ cs / 10 → v.id ∈ S3FIFOd_mainVictims s')) ∧
    (bytes 0 (cont s.fifo.objs) ≠ 0 → ∃ o, s.fifo.objs = s'.fifo.objs ++ [o] ∧
      (thr ≤ o.miscFreq → S3FIFOd_ghost s' = S3FIFOd_ghost s ∧ (vs ++ S3FIFOd_mainLRU s'.main).Perm ((o.id, o.size) :: S3FIFOd_mainLRU s.main) ∧
        bytes 0 (S3FIFOd_mainLRU s'.main) ≤ (S3FIFOd_shares S3FIFOd.onLRU s).main ∧
        ∀ us v, vs = us ++ [v] → bytes 0 (v :: S3FIFOd_mainLRU s'.main) > (S3FIFOd_shares S3FIFOd.onLRU s).main) ∧
      (o.miscFreq < thr → vs = [(o.id, o.size)] ∧ s'.main = s.main ∧ ((o.size : Int) ≤ (S3FIFOd_shares S3FIFOd.onLRU s).ghost → o.id ∈ S3FIFOd_ghost s') ∧
        (o.size ≤ cs / 10 → o.id ∈ S3FIFOd_smallVictims s'))) := by
  have hi := (S3FIFOd.contract S3FIFOd.loose_lru ⟨cs, fs, thr, stale, h⟩ p).reach (S3FIFOd_invLRU cs fs thr stale p h) ho hr
  simp only [bytes_eq_charge] at hpos ⊢
  have hsr : ∀ o : Obj Unit, S3FIFOd.staleRead s o = o.miscFreq := by
    intro o
    have := hi.stale hst
    simp [S3FIFOd.staleRead, this]
  obtain ⟨s', vs, k1, _, k3, _, _, _, _, _, _, _, k11, k12⟩ := S3FIFOd.evict_spec S3FIFOd.loose_lru hi hpos r
  by_cases hz : charge 0 (cont s.fifo.objs) = 0
  · obtain ⟨e1, e2, v, e3, e4, e5⟩ := k11 hz
    refine ⟨s', [(v.id, v.size)], k1, ?_, fun _ => ⟨by simp only [S3FIFOd_small, e1], by simp only [S3FIFOd_ghost, e2], v, e3, rfl, e5⟩, fun hx => absurd hz hx⟩
    unfold S3FIFOd_cached S3FIFOd.cached
    rw [e1]
    exact (e4.append_left _).trans List.perm_middle
  · obtain ⟨o, e1, e2, e3⟩ := k12 hz
    rw [hsr] at e2 e3
    refine ⟨s', vs, k1, k3, fun hx => absurd hx hz, fun _ => ⟨o, e1, fun hx => ?_, e3⟩⟩
    obtain ⟨f1, f2, f3, f4⟩ := e2 hx
    exact ⟨by simp only [S3FIFOd_ghost, f1], f2, f3, f4⟩

end

/-! ## Main cache: Clock with counters up to `mf` (1, 3 or 7) -/

/-- the objects in the main cache -/
abbrev S3FIFOd_mainClock (s : Clock.State) : Contents := s.base.cached
/-- a new cache of `cs` bytes with `fs` bytes for the small cache -/
abbrev S3FIFOd_newClock (mf : Nat) (cs fs : Nat) (thr : Int) (stale : List (Option Int)) : S3FIFOd.State Clock.State := S3FIFOd.initClock mf cs fs thr stale false

section
variable (mf : Nat) (cs fs : Nat) (thr : Int) (stale : List (Option Int)) (p : Perms) (h : fs ≤ cs)
include h

theorem S3FIFOd_invClock : S3FIFOd.Inv S3FIFOd.onClock S3FIFOd_mainClock (S3FIFOd.slackClock mf) ⟨cs, fs, thr, stale, h⟩ p (S3FIFOd_newClock mf cs fs thr stale) :=
  S3FIFOd.inv_init (S3FIFOd.loose_clock mf) ⟨cs, fs, thr, stale, h⟩ p (S3FIFOd.slackClock_init mf _) rfl rfl

theorem C01_capacity_S3FIFOd_Clock_partial : Capacity (S3FIFOd.algo S3FIFOd.onClock) (S3FIFOd_newClock mf cs fs thr stale) (Calls p (Adapt.FitsMain cs fs p)) cs :=
  (S3FIFOd.contract (S3FIFOd.loose_clock mf) ⟨cs, fs, thr, stale, h⟩ p).capacity (S3FIFOd_invClock mf cs fs thr stale p h)

theorem C02_accounting_S3FIFOd_Clock_partial :
    Accounting (S3FIFOd.algo S3FIFOd.onClock) (S3FIFOd_cached S3FIFOd_mainClock) (S3FIFOd_newClock mf cs fs thr stale) (Calls p (Adapt.FitsMain cs fs p)) 0 :=
  (S3FIFOd.contract (S3FIFOd.loose_clock mf) ⟨cs, fs, thr, stale, h⟩ p).accounting (S3FIFOd_invClock mf cs fs thr stale p h)

theorem C03_hitIffCached_S3FIFOd_Clock_partial :
    HitIffCached (S3FIFOd.algo S3FIFOd.onClock) (S3FIFOd_cached S3FIFOd_mainClock) (S3FIFOd_newClock mf cs fs thr stale) (Calls p (Adapt.FitsMain cs fs p)) :=
  (S3FIFOd.contract (S3FIFOd.loose_clock mf) ⟨cs, fs, thr, stale, h⟩ p).hitIffCached (S3FIFOd_invClock mf cs fs thr stale p h)

/-- What is proved of C04: without client inserts. -/
theorem C04_noPhantom_S3FIFOd_Clock_partial (hins : p.ins = false) :
    NoPhantom (S3FIFOd.algo S3FIFOd.onClock) (S3FIFOd_cached S3FIFOd_mainClock) (S3FIFOd_newClock mf cs fs thr stale) (Calls p (Adapt.FitsMain cs fs p)) := by
  refine (S3FIFOd.contract (S3FIFOd.loose_clock mf) ⟨cs, fs, thr, stale, h⟩ p).noPhantom (S3FIFOd_invClock mf cs fs thr stale p h) rfl ?_
  intro _ s s' b id hi he
  obtain ⟨s'', k1, _, _, k3, _⟩ := S3FIFOd.remove_spec (S3FIFOd.loose_clock mf) hi id
  have he' : S3FIFOd.remove S3FIFOd.onClock s id = .ok (b, s') := he
  rw [k1] at he'
  injection he' with he'
  injection he' with _ he'
  subst he'
  intro hx
  have := ((k3 hins).map Prod.fst).subset hx
  simp at this

theorem C04_addsOnlyRequested_S3FIFOd_Clock_partial :
    AddsOnlyRequested (S3FIFOd.algo S3FIFOd.onClock) (S3FIFOd_cached S3FIFOd_mainClock) (S3FIFOd_newClock mf cs fs thr stale) (Calls p (Adapt.FitsMain cs fs p)) :=
  (S3FIFOd.contract (S3FIFOd.loose_clock mf) ⟨cs, fs, thr, stale, h⟩ p).addsOnlyRequested (S3FIFOd_invClock mf cs fs thr stale p h)

theorem C05_admittedMissCached_S3FIFOd_Clock_partial :
    AdmittedMissCached (S3FIFOd.algo S3FIFOd.onClock) (S3FIFOd_cached S3FIFOd_mainClock) (fun s r => decide (r.size ≤ (S3FIFOd_next S3FIFOd.onClock cs s).small))
      (S3FIFOd_newClock mf cs fs thr stale) (Calls p (Adapt.FitsMain cs fs p)) := by
  intro ops out s ho hr r hok hn ha
  have hi := (S3FIFOd.contract (S3FIFOd.loose_clock mf) ⟨cs, fs, thr, stale, h⟩ p).reach (S3FIFOd_invClock mf cs fs thr stale p h) ho hr
  obtain ⟨s', k1, _, _, _, _, k6, k7⟩ := S3FIFOd.get_miss (S3FIFOd.loose_clock mf) hi hok hn
  simp only [S3FIFOd_next, bytes_eq_charge] at ha
  have hle := of_decide_eq_true ha
  refine ⟨s', k1, ?_⟩
  by_cases hg : r.id ∈ S3FIFOd.qids s.ghost
  · exact List.mem_append_right _ (k6 hle hg)
  · have hh := (k7 hle hg).1
    refine List.mem_append_left _ (List.mem_map.2 ⟨_, List.mem_of_mem_head? hh, rfl⟩)

/-- What is proved of C06: a hit evicts nothing, a request that is not admitted evicts nothing, and a request for which there is room evicts nothing unless
the object is remembered in the ghost queue. -/
theorem C06_evictOnDemand_S3FIFOd_Clock_partial (ops : List Op) (out : List Bool) (s : S3FIFOd.State Clock.State)
    (ho : ∀ op ∈ ops, Calls p (Adapt.FitsMain cs fs p) op) (hr : Reaches (S3FIFOd.algo S3FIFOd.onClock) (S3FIFOd_newClock mf cs fs thr stale) ops out s)
    (r : Req) (hok : Adapt.FitsMain cs fs p r) (b : Bool) (s' : S3FIFOd.State Clock.State) (hg : (S3FIFOd.algo S3FIFOd.onClock).get s r = .ok (b, s')) :
    (b = true → (S3FIFOd_cached S3FIFOd_mainClock s').Perm (S3FIFOd_cached S3FIFOd_mainClock s)) ∧
    (b = false → r.size > (S3FIFOd_next S3FIFOd.onClock cs s).small → (S3FIFOd_cached S3FIFOd_mainClock s').Perm (S3FIFOd_cached S3FIFOd_mainClock s)) ∧
    (b = false → r.size ≤ (S3FIFOd_next S3FIFOd.onClock cs s).small → r.id ∉ S3FIFOd_ghost s → bytes 0 (S3FIFOd_cached S3FIFOd_mainClock s) + r.size ≤ cs →
      (S3FIFOd_cached S3FIFOd_mainClock s').Perm ((r.id, r.size % u32) :: S3FIFOd_cached S3FIFOd_mainClock s)) := by
  have hi := (S3FIFOd.contract (S3FIFOd.loose_clock mf) ⟨cs, fs, thr, stale, h⟩ p).reach (S3FIFOd_invClock mf cs fs thr stale p h) ho hr
  have hb := S3FIFOd.get_answer (S3FIFOd.loose_clock mf) hi hok hg
  simp only [S3FIFOd_next, bytes_eq_charge]
  by_cases hin : r.id ∈ (S3FIFOd_cached S3FIFOd_mainClock s).ids
  · have hb' : b = true := by rw [hb]; exact decide_eq_true hin
    subst hb'
    exact ⟨fun _ => (S3FIFOd.get_hit_spec (S3FIFOd.loose_clock mf) hi hin hg).1, fun hx => (by cases hx), fun hx => (by cases hx)⟩
  · have hb' : b = false := by rw [hb]; exact decide_eq_false hin
    subst hb'
    obtain ⟨s'', k1, _, _, k4, _, _, k7⟩ := S3FIFOd.get_miss (S3FIFOd.loose_clock mf) hi hok hin
    rw [k1] at hg
    cases hg
    refine ⟨fun hx => (by cases hx), fun _ hx => ?_, fun _ hle hgn hroom => (k7 hle hgn).2 hroom⟩
    obtain ⟨e1, e2⟩ := k4 hx
    unfold S3FIFOd_cached S3FIFOd.cached
    rw [e1]
    exact e2.append_left _

/-- What is proved of C07: without client inserts `remove` removes exactly the object.  Its answer is also `true` for an object of the ghost queue. -/
theorem C07_removeExact_S3FIFOd_Clock_partial (hins : p.ins = false) (ops : List Op) (out : List Bool) (s : S3FIFOd.State Clock.State)
    (ho : ∀ op ∈ ops, Calls p (Adapt.FitsMain cs fs p) op) (hr : Reaches (S3FIFOd.algo S3FIFOd.onClock) (S3FIFOd_newClock mf cs fs thr stale) ops out s) (id : ObjId) :
    ∃ s', (S3FIFOd.algo S3FIFOd.onClock).remove s id = .ok (decide (id ∈ (S3FIFOd_cached S3FIFOd_mainClock s).ids ∨ id ∈ S3FIFOd_ghost s), s') ∧
      (S3FIFOd_cached S3FIFOd_mainClock s').Perm ((S3FIFOd_cached S3FIFOd_mainClock s).filter (fun x => x.1 ≠ id)) := by
  have hi := (S3FIFOd.contract (S3FIFOd.loose_clock mf) ⟨cs, fs, thr, stale, h⟩ p).reach (S3FIFOd_invClock mf cs fs thr stale p h) ho hr
  obtain ⟨s', k1, _, _, k3, _⟩ := S3FIFOd.remove_spec (S3FIFOd.loose_clock mf) hi id
  exact ⟨s', k1, k3 hins⟩

/-- C08: a request that is not admitted leaves the small cache as it is, and the objects of the main cache. -/
theorem C08_rejectQuiet_S3FIFOd_Clock_partial (ops : List Op) (out : List Bool) (s : S3FIFOd.State Clock.State)
    (ho : ∀ op ∈ ops, Calls p (Adapt.FitsMain cs fs p) op) (hr : Reaches (S3FIFOd.algo S3FIFOd.onClock) (S3FIFOd_newClock mf cs fs thr stale) ops out s)
    (r : Req) (hok : Adapt.FitsMain cs fs p r) (hn : r.id ∉ (S3FIFOd_cached S3FIFOd_mainClock s).ids) (hgt : r.size > (S3FIFOd_next S3FIFOd.onClock cs s).small) :
    ∃ s', (S3FIFOd.algo S3FIFOd.onClock).get s r = .ok (false, s') ∧ S3FIFOd_small s' = S3FIFOd_small s ∧ (S3FIFOd_mainClock s'.main).Perm (S3FIFOd_mainClock s.main) := by
  have hi := (S3FIFOd.contract (S3FIFOd.loose_clock mf) ⟨cs, fs, thr, stale, h⟩ p).reach (S3FIFOd_invClock mf cs fs thr stale p h) ho hr
  obtain ⟨s', k1, _, _, k4, _⟩ := S3FIFOd.get_miss (S3FIFOd.loose_clock mf) hi hok hn
  simp only [S3FIFOd_next, bytes_eq_charge] at hgt
  obtain ⟨e1, e2⟩ := k4 hgt
  exact ⟨s', k1, by simp only [S3FIFOd_small, e1], e2⟩

theorem C09_safe_S3FIFOd_Clock_partial : Safe (S3FIFOd.algo S3FIFOd.onClock) (S3FIFOd_newClock mf cs fs thr stale) (Calls p (Adapt.FitsMain cs fs p)) :=
  (S3FIFOd.contract (S3FIFOd.loose_clock mf) ⟨cs, fs, thr, stale, h⟩ p).safe (S3FIFOd_invClock mf cs fs thr stale p h)

/-- C82: the sizes of the small and the main cache always add up to the cache size; the ghost queue grows and shrinks with the small cache; neither part falls
below a hundredth of the cache less a step, or its initial size if that is less. -/
theorem C82_sizes_S3FIFOd_Clock_partial (ops : List Op) (out : List Bool) (s : S3FIFOd.State Clock.State)
    (ho : ∀ op ∈ ops, Calls p (Adapt.FitsMain cs fs p) op) (hr : Reaches (S3FIFOd.algo S3FIFOd.onClock) (S3FIFOd_newClock mf cs fs thr stale) ops out s) :
    (S3FIFOd_shares S3FIFOd.onClock s).small + (S3FIFOd_shares S3FIFOd.onClock s).main = cs ∧
    (S3FIFOd_shares S3FIFOd.onClock s).ghost = cs + (S3FIFOd_shares S3FIFOd.onClock s).small - 2 * fs ∧
    min fs (Adapt.floorOf cs) ≤ (S3FIFOd_shares S3FIFOd.onClock s).small ∧ min (cs - fs) (Adapt.floorOf cs) ≤ (S3FIFOd_shares S3FIFOd.onClock s).main := by
  have hi := (S3FIFOd.contract (S3FIFOd.loose_clock mf) ⟨cs, fs, thr, stale, h⟩ p).reach (S3FIFOd_invClock mf cs fs thr stale p h) ho hr
  exact ⟨hi.sizes.sum, hi.sizes.ghost, hi.sizes.lowF, hi.sizes.lowM⟩

/-- C82: what `get` does to the sizes and to the two counters of requests for recent victims. -/
theorem C82_adapts_S3FIFOd_Clock_partial (ops : List Op) (out : List Bool) (s : S3FIFOd.State Clock.State)
    (ho : ∀ op ∈ ops, Calls p (Adapt.FitsMain cs fs p) op) (hr : Reaches (S3FIFOd.algo S3FIFOd.onClock) (S3FIFOd_newClock mf cs fs thr stale) ops out s)
    (r : Req) (hok : Adapt.FitsMain cs fs p r) (b : Bool) (s' : S3FIFOd.State Clock.State) (hg : (S3FIFOd.algo S3FIFOd.onClock).get s r = .ok (b, s')) :
    S3FIFOd_shares S3FIFOd.onClock s' = S3FIFOd_next S3FIFOd.onClock cs s ∧
    s'.fifoHit = (Adapt.age (decide (0 < bytes 0 s.mainEv.base.cached)) s.fifoHit s.mainHit).1 +
      (if r.id ∉ (S3FIFOd_small s).map Prod.fst ∧ r.id ∈ S3FIFOd_smallVictims s then 1 else 0) ∧
    s'.mainHit = (Adapt.age (decide (0 < bytes 0 s.mainEv.base.cached)) s.fifoHit s.mainHit).2 +
      (if r.id ∉ (S3FIFOd_small s).map Prod.fst ∧ r.id ∈ S3FIFOd_mainVictims s then 1 else 0) := by
  have hi := (S3FIFOd.contract (S3FIFOd.loose_clock mf) ⟨cs, fs, thr, stale, h⟩ p).reach (S3FIFOd_invClock mf cs fs thr stale p h) ho hr
  have key : S3FIFOd.gauge S3FIFOd.onClock s' = S3FIFOd.nextGauge S3FIFOd.onClock ⟨cs, fs, thr, stale, h⟩ s r.id := by
    have hb := S3FIFOd.get_answer (S3FIFOd.loose_clock mf) hi hok hg
    by_cases hin : r.id ∈ (S3FIFOd_cached S3FIFOd_mainClock s).ids
    · have hb' : b = true := by rw [hb]; exact decide_eq_true hin
      subst hb'
      exact (S3FIFOd.get_hit_spec (S3FIFOd.loose_clock mf) hi hin hg).2.1
    · have hb' : b = false := by rw [hb]; exact decide_eq_false hin
      subst hb'
      obtain ⟨s'', k1, _, k3, _⟩ := S3FIFOd.get_miss (S3FIFOd.loose_clock mf) hi hok hin
      rw [k1] at hg
      cases hg
      exact k3
  simp only [S3FIFOd_next, bytes_eq_charge, S3FIFOd_small, List.map_map]
  refine ⟨congrArg Prod.fst key, congrArg (fun x => x.2.1) key, congrArg (fun x => x.2.2) key⟩

/-- C82: without client inserts an object is at most once in the small cache, the main cache and the ghost queue taken together. -/
theorem C82_onePart_S3FIFOd_Clock_partial (hins : p.ins = false) (ops : List Op) (out : List Bool) (s : S3FIFOd.State Clock.State)
    (ho : ∀ op ∈ ops, Calls p (Adapt.FitsMain cs fs p) op) (hr : Reaches (S3FIFOd.algo S3FIFOd.onClock) (S3FIFOd_newClock mf cs fs thr stale) ops out s) :
    ((S3FIFOd_cached S3FIFOd_mainClock s).ids ++ S3FIFOd_ghost s).Nodup := by
  have hi := (S3FIFOd.contract (S3FIFOd.loose_clock mf) ⟨cs, fs, thr, stale, h⟩ p).reach (S3FIFOd_invClock mf cs fs thr stale p h) ho hr
  rw [List.nodup_append]
  exact ⟨hi.nodup (S3FIFOd.loose_clock mf), S3FIFOd.loose_fifo.nodup hi.queues.ghost, fun a ha b hb e => hi.sep hins b hb (by rw [← e]; exact ha)⟩

/-- C82: the hits of an object in the small cache, as counted by the cache, are those the client saw since the object entered the cache. -/
theorem C82_hitsCounted_S3FIFOd_Clock_partial (ops : List Op) (out : List Bool) (s : S3FIFOd.State Clock.State)
    (ho : ∀ op ∈ ops, Calls p (Adapt.FitsMain cs fs p) op) (hr : Reaches (S3FIFOd.algo S3FIFOd.onClock) (S3FIFOd_newClock mf cs fs thr stale) ops out s) :
    ∀ x ∈ S3FIFOd_small s, x.2 = hitsSince (ops.zip out) x.1 := by
  intro x hx
  obtain ⟨o, hox, rfl⟩ := List.mem_map.1 hx
  exact (S3FIFOd.reach_freq (S3FIFOd.loose_clock mf) (S3FIFOd_invClock mf cs fs thr stale p h) rfl ops out s ho hr).1 o hox

/-- C82: where a missed object that is admitted enters: the main cache if it is remembered in the ghost queue, else the front of the small cache, with no hits. -/
theorem C82_placed_S3FIFOd_Clock_partial (ops : List Op) (out : List Bool) (s : S3FIFOd.State Clock.State)
    (ho : ∀ op ∈ ops, Calls p (Adapt.FitsMain cs fs p) op) (hr : Reaches (S3FIFOd.algo S3FIFOd.onClock) (S3FIFOd_newClock mf cs fs thr stale) ops out s)
    (r : Req) (hok : Adapt.FitsMain cs fs p r) (hn : r.id ∉ (S3FIFOd_cached S3FIFOd_mainClock s).ids) (hle : r.size ≤ (S3FIFOd_next S3FIFOd.onClock cs s).small) :
    ∃ s', (S3FIFOd.algo S3FIFOd.onClock).get s r = .ok (false, s') ∧
      (r.id ∈ S3FIFOd_ghost s → (r.id, r.size % u32) ∈ S3FIFOd_mainClock s'.main) ∧ (r.id ∉ S3FIFOd_ghost s → (S3FIFOd_small s').head? = some (r.id, 0)) := by
  have hi := (S3FIFOd.contract (S3FIFOd.loose_clock mf) ⟨cs, fs, thr, stale, h⟩ p).reach (S3FIFOd_invClock mf cs fs thr stale p h) ho hr
  obtain ⟨s', k1, _, _, _, _, k6, k7⟩ := S3FIFOd.get_miss (S3FIFOd.loose_clock mf) hi hok hn
  simp only [S3FIFOd_next, bytes_eq_charge] at hle
  refine ⟨s', k1, k6 hle, fun hx => ?_⟩
  have e := (k7 hle hx).1
  simp only [S3FIFOd_small, List.head?_map, e]
  rfl

/-- C82: whom `evict` takes.  If the small cache holds no bytes, the victim the main cache names.  Otherwise the oldest object of the small cache leaves it.  With
at least `thr` hits it moves to the main cache, which then evicts until it is within its size again, and no further.  With fewer hits it leaves the cache, and is
remembered in the ghost queue and among the small cache's recent victims, as far as it fits there.  (This needs the freed object to be still readable: `stale = []`.) -/
theorem C82_victim_S3FIFOd_Clock_partial (hst : stale = []) (ops : List Op) (out : List Bool) (s : S3FIFOd.State Clock.State)
    (ho : ∀ op ∈ ops, Calls p (Adapt.FitsMain cs fs p) op) (hr : Reaches (S3FIFOd.algo S3FIFOd.onClock) (S3FIFOd_newClock mf cs fs thr stale) ops out s)
    (hpos : 0 < bytes 0 (S3FIFOd_cached S3FIFOd_mainClock s)) (r : Req) :
    ∃ s' vs, (S3FIFOd.algo S3FIFOd.onClock).evict s r = .ok s' ∧ (S3FIFOd_cached S3FIFOd_mainClock s).Perm (vs ++ S3FIFOd_cached S3FIFOd_mainClock s') ∧
    (bytes 0 (cont s.fifo.objs) = 0 → S3FIFOd_small s' = S3FIFOd_small s ∧ S3FIFOd_ghost s' = S3FIFOd_ghost s ∧
      ∃ v, S3FIFOd.onClock.victim s.main = some v ∧ vs = [(v.id, v.size)] ∧ (v.size ≤ cs / 10 → v.id ∈ S3FIFOd_mainVictims s')) ∧
    (bytes 0 (cont s.fifo.objs) ≠ 0 → ∃ o, s.fifo.objs = s'.fifo.objs ++ [o] ∧
      (thr ≤ o.miscFreq → S3FIFOd_ghost s' = S3FIFOd_ghost s ∧ (vs ++ S3FIFOd_mainClock s'.main).Perm ((o.id, o.size) :: S3FIFOd_mainClock s.main) ∧
        bytes 0 (S3FIFOd_mainClock s'.main) ≤ (S3FIFOd_shares S3FIFOd.onClock s).main ∧
        ∀ us v, vs = us ++ [v] → bytes 0 (v :: S3FIFOd_mainClock s'.main) > (S3FIFOd_shares S3FIFOd.onClock s).main) ∧
      (o.miscFreq < thr → vs = [(o.id, o.size)] ∧ s'.main = s.main ∧ ((o.size : Int) ≤ (S3FIFOd_shares S3FIFOd.onClock s).ghost → o.id ∈ S3FIFOd_ghost s') ∧
        (o.size ≤ cs / 10 → o.id ∈ S3FIFOd_smallVictims s'))) := by
  have hi := (S3FIFOd.contract (S3FIFOd.loose_clock mf) ⟨cs, fs, thr, stale, h⟩ p).reach (S3FIFOd_invClock mf cs fs thr stale p h) ho hr
  simp only [bytes_eq_charge] at hpos ⊢
  have hsr : ∀ o : Obj Unit, S3FIFOd.staleRead s o = o.miscFreq := by
    intro o
    have := hi.stale hst
    simp [S3FIFOd.staleRead, this]
  obtain ⟨s', vs, k1, _, k3, _, _, _, _, _, _, _, k11, k12⟩ := S3FIFOd.evict_spec (S3FIFOd.loose_clock mf) hi hpos r
  by_cases hz : charge 0 (cont s.fifo.objs) = 0
  · obtain ⟨e1, e2, v, e3, e4, e5⟩ := k11 hz
    refine ⟨s', [(v.id, v.size)], k1, ?_, fun _ => ⟨by simp only [S3FIFOd_small, e1], by simp only [S3FIFOd_ghost, e2], v, e3, rfl, e5⟩, fun hx => absurd hz hx⟩
    unfold S3FIFOd_cached S3FIFOd.cached
    rw [e1]
    exact (e4.append_left _).trans List.perm_middle
  · obtain ⟨o, e1, e2, e3⟩ := k12 hz
    rw [hsr] at e2 e3
    refine ⟨s', vs, k1, k3, fun hx => absurd hx hz, fun _ => ⟨o, e1, fun hx => ?_, e3⟩⟩
    obtain ⟨f1, f2, f3, f4⟩ := e2 hx
    exact ⟨by simp only [S3FIFOd_ghost, f1], f2, f3, f4⟩

end

/-! ## Main cache: Sieve -/

/-- the objects in the main cache -/
abbrev S3FIFOd_mainSieve (s : Sieve.State) : Contents := s.base.cached
/-- a new cache of `cs` bytes with `fs` bytes for the small cache -/
abbrev S3FIFOd_newSieve (cs fs : Nat) (thr : Int) (stale : List (Option Int)) : S3FIFOd.State Sieve.State := S3FIFOd.initSieve cs fs thr stale false

section
variable (cs fs : Nat) (thr : Int) (stale : List (Option Int)) (p : Perms) (h : fs ≤ cs)
include h

theorem S3FIFOd_invSieve : S3FIFOd.Inv S3FIFOd.onSieve S3FIFOd_mainSieve S3FIFOd.slackSieve ⟨cs, fs, thr, stale, h⟩ p (S3FIFOd_newSieve cs fs thr stale) :=
  S3FIFOd.inv_init S3FIFOd.loose_sieve ⟨cs, fs, thr, stale, h⟩ p (S3FIFOd.slackSieve_init _) rfl rfl

theorem C01_capacity_S3FIFOd_Sieve_partial : Capacity (S3FIFOd.algo S3FIFOd.onSieve) (S3FIFOd_newSieve cs fs thr stale) (Calls p (Adapt.FitsMain cs fs p)) cs :=
  (S3FIFOd.contract S3FIFOd.loose_sieve ⟨cs, fs, thr, stale, h⟩ p).capacity (S3FIFOd_invSieve cs fs thr stale p h)

theorem C02_accounting_S3FIFOd_Sieve_partial :
    Accounting (S3FIFOd.algo S3FIFOd.onSieve) (S3FIFOd_cached S3FIFOd_mainSieve) (S3FIFOd_newSieve cs fs thr stale) (Calls p (Adapt.FitsMain cs fs p)) 0 :=
  (S3FIFOd.contract S3FIFOd.loose_sieve ⟨cs, fs, thr, stale, h⟩ p).accounting (S3FIFOd_invSieve cs fs thr stale p h)

theorem C03_hitIffCached_S3FIFOd_Sieve_partial :
    HitIffCached (S3FIFOd.algo S3FIFOd.onSieve) (S3FIFOd_cached S3FIFOd_mainSieve) (S3FIFOd_newSieve cs fs thr stale) (Calls p (Adapt.FitsMain cs fs p)) :=
  (S3FIFOd.contract S3FIFOd.loose_sieve ⟨cs, fs, thr, stale, h⟩ p).hitIffCached (S3FIFOd_invSieve cs fs thr stale p h)

/-- What is proved of C04: without client inserts. -/
theorem C04_noPhantom_S3FIFOd_Sieve_partial (hins : p.ins = false) :
    NoPhantom (S3FIFOd.algo S3FIFOd.onSieve) (S3FIFOd_cached S3FIFOd_mainSieve) (S3FIFOd_newSieve cs fs thr stale) (Calls p (Adapt.FitsMain cs fs p)) := by
  refine (S3FIFOd.contract S3FIFOd.loose_sieve ⟨cs, fs, thr, stale, h⟩ p).noPhantom (S3FIFOd_invSieve cs fs thr stale p h) rfl ?_
  intro _ s s' b id hi he
  obtain ⟨s'', k1, _, _, k3, _⟩ := S3FIFOd.remove_spec S3FIFOd.loose_sieve hi id
  have he' : S3FIFOd.remove S3FIFOd.onSieve s id = .ok (b, s') := he
  rw [k1] at he'
  injection he' with he'
  injection he' with _ he'
  subst he'
  intro hx
  have := ((k3 hins).map Prod.fst).subset hx
  simp at this

theorem C04_addsOnlyRequested_S3FIFOd_Sieve_partial :
    AddsOnlyRequested (S3FIFOd.algo S3FIFOd.onSieve) (S3FIFOd_cached S3FIFOd_mainSieve) (S3FIFOd_newSieve cs fs thr stale) (Calls p (Adapt.FitsMain cs fs p)) :=
  (S3FIFOd.contract S3FIFOd.loose_sieve ⟨cs, fs, thr, stale, h⟩ p).addsOnlyRequested (S3FIFOd_invSieve cs fs thr stale p h)

theorem C05_admittedMissCached_S3FIFOd_Sieve_partial :
    AdmittedMissCached (S3FIFOd.algo S3FIFOd.onSieve) (S3FIFOd_cached S3FIFOd_mainSieve) (fun s r => decide (r.size ≤ (S3FIFOd_next S3FIFOd.onSieve cs s).small))
      (S3FIFOd_newSieve cs fs thr stale) (Calls p (Adapt.FitsMain cs fs p)) := by
  intro ops out s ho hr r hok hn ha
  have hi := (S3FIFOd.contract S3FIFOd.loose_sieve ⟨cs, fs, thr, stale, h⟩ p).reach (S3FIFOd_invSieve cs fs thr stale p h) ho hr
  obtain ⟨s', k1, _, _, _, _, k6, k7⟩ := S3FIFOd.get_miss S3FIFOd.loose_sieve hi hok hn
  simp only [S3FIFOd_next, bytes_eq_charge] at ha
  have hle := of_decide_eq_true ha
  refine ⟨s', k1, ?_⟩
  by_cases hg : r.id ∈ S3FIFOd.qids s.ghost
  · exact List.mem_append_right _ (k6 hle hg)
  · have hh := (k7 hle hg).1
    refine List.mem_append_left _ (List.mem_map.2 ⟨_, List.mem_of_mem_head? hh, rfl⟩)

/-- What is proved of C06: a hit evicts nothing, a request that is not admitted evicts nothing, and a request for which there is room evicts nothing unless
the object is remembered in the ghost queue. -/
theorem C06_evictOnDemand_S3FIFOd_Sieve_partial (ops : List Op) (out : List Bool) (s : S3FIFOd.State Sieve.State)
    (ho : ∀ op ∈ ops, Calls p (Adapt.FitsMain cs fs p) op) (hr : Reaches (S3FIFOd.algo S3FIFOd.onSieve) (S3FIFOd_newSieve cs fs thr stale) ops out s)
    (r : Req) (hok : Adapt.FitsMain cs fs p r) (b : Bool) (s' : S3FIFOd.State Sieve.State) (hg : (S3FIFOd.algo S3FIFOd.onSieve).get s r = .ok (b, s')) :
    (b = true → (S3FIFOd_cached S3FIFOd_mainSieve s').Perm (S3FIFOd_cached S3FIFOd_mainSieve s)) ∧
    (b = false → r.size > (S3FIFOd_next S3FIFOd.onSieve cs s).small → (S3FIFOd_cached S3FIFOd_mainSieve s').Perm (S3FIFOd_cached S3FIFOd_mainSieve s)) ∧
    (b = false → r.size ≤ (S3FIFOd_next S3FIFOd.onSieve cs s).small → r.id ∉ S3FIFOd_ghost s → bytes 0 (S3FIFOd_cached S3FIFOd_mainSieve s) + r.size ≤ cs →
      (S3FIFOd_cached S3FIFOd_mainSieve s').Perm ((r.id, r.size % u32) :: S3FIFOd_cached S3FIFOd_mainSieve s)) := by
  have hi := (S3FIFOd.contract S3FIFOd.loose_sieve ⟨cs, fs, thr, stale, h⟩ p).reach (S3FIFOd_invSieve cs fs thr stale p h) ho hr
  have hb := S3FIFOd.get_answer S3FIFOd.loose_sieve hi hok hg
  simp only [S3FIFOd_next, bytes_eq_charge]
  by_cases hin : r.id ∈ (S3FIFOd_cached S3FIFOd_mainSieve s).ids
  · have hb' : b = true := by rw [hb]; exact decide_eq_true hin
    subst hb'
    exact ⟨fun _ => (S3FIFOd.get_hit_spec S3FIFOd.loose_sieve hi hin hg).1, fun hx => (by cases hx), fun hx => (by cases hx)⟩
  · have hb' : b = false := by rw [hb]; exact decide_eq_false hin
    subst hb'
    obtain ⟨s'', k1, _, _, k4, _, _, k7⟩ := S3FIFOd.get_miss S3FIFOd.loose_sieve hi hok hin
    rw [k1] at hg
    cases hg
    refine ⟨fun hx => (by cases hx), fun _ hx => ?_, fun _ hle hgn hroom => (k7 hle hgn).2 hroom⟩
    obtain ⟨e1, e2⟩ := k4 hx
    unfold S3FIFOd_cached S3FIFOd.cached
    rw [e1]
    exact e2.append_left _

/-- What is proved of C07: without client inserts `remove` removes exactly the object.  Its answer is also `true` for an object of the ghost queue. -/
theorem C07_removeExact_S3FIFOd_Sieve_partial (hins : p.ins = false) (ops : List Op) (out : List Bool) (s : S3FIFOd.State Sieve.State)
    (ho : ∀ op ∈ ops, Calls p (Adapt.FitsMain cs fs p) op) (hr : Reaches (S3FIFOd.algo S3FIFOd.onSieve) (S3FIFOd_newSieve cs fs thr stale) ops out s) (id : ObjId) :
    ∃ s', (S3FIFOd.algo S3FIFOd.onSieve).remove s id = .ok (decide (id ∈ (S3FIFOd_cached S3FIFOd_mainSieve s).ids ∨ id ∈ S3FIFOd_ghost s), s') ∧
      (S3FIFOd_cached S3FIFOd_mainSieve s').Perm ((S3FIFOd_cached S3FIFOd_mainSieve s).filter (fun x => x.1 ≠ id)) := by
  have hi := (S3FIFOd.contract S3FIFOd.loose_sieve ⟨cs, fs, thr, stale, h⟩ p).reach (S3FIFOd_invSieve cs fs thr stale p h) ho hr
  obtain ⟨s', k1, _, _, k3, _⟩ := S3FIFOd.remove_spec S3FIFOd.loose_sieve hi id
  exact ⟨s', k1, k3 hins⟩

/-- C08: a request that is not admitted leaves the small cache as it is, and the objects of the main cache. -/
theorem C08_rejectQuiet_S3FIFOd_Sieve_partial (ops : List Op) (out : List Bool) (s : S3FIFOd.State Sieve.State)
    (ho : ∀ op ∈ ops, Calls p (Adapt.FitsMain cs fs p) op) (hr : Reaches (S3FIFOd.algo S3FIFOd.onSieve) (S3FIFOd_newSieve cs fs thr stale) ops out s)
    (r : Req) (hok : Adapt.FitsMain cs fs p r) (hn : r.id ∉ (S3FIFOd_cached S3FIFOd_mainSieve s).ids) (hgt : r.size > (S3FIFOd_next S3FIFOd.onSieve cs s).small) :
    ∃ s', (S3FIFOd.algo S3FIFOd.onSieve).get s r = .ok (false, s') ∧ S3FIFOd_small s' = S3FIFOd_small s ∧ (S3FIFOd_mainSieve s'.main).Perm (S3FIFOd_mainSieve s.main) := by
  have hi := (S3FIFOd.contract S3FIFOd.loose_sieve ⟨cs, fs, thr, stale, h⟩ p).reach (S3FIFOd_invSieve cs fs thr stale p h) ho hr
  obtain ⟨s', k1, _, _, k4, _⟩ := S3FIFOd.get_miss S3FIFOd.loose_sieve hi hok hn
  simp only [S3FIFOd_next, bytes_eq_charge] at hgt
  obtain ⟨e1, e2⟩ := k4 hgt
  exact ⟨s', k1, by simp only [S3FIFOd_small, e1], e2⟩

theorem C09_safe_S3FIFOd_Sieve_partial : Safe (S3FIFOd.algo S3FIFOd.onSieve) (S3FIFOd_newSieve cs fs thr stale) (Calls p (Adapt.FitsMain cs fs p)) :=
  (S3FIFOd.contract S3FIFOd.loose_sieve ⟨cs, fs, thr, stale, h⟩ p).safe (S3FIFOd_invSieve cs fs thr stale p h)

/-- C82: the sizes of the small and the main cache always add up to the cache size; the ghost queue grows and shrinks with the small cache; neither part falls
below a hundredth of the cache less a step, or its initial size if that is less. -/
theorem C82_sizes_S3FIFOd_Sieve_partial (ops : List Op) (out : List Bool) (s : S3FIFOd.State Sieve.State)
    (ho : ∀ op ∈ ops, Calls p (Adapt.FitsMain cs fs p) op) (hr : Reaches (S3FIFOd.algo S3FIFOd.onSieve) (S3FIFOd_newSieve cs fs thr stale) ops out s) :
    (S3FIFOd_shares S3FIFOd.onSieve s).small + (S3FIFOd_shares S3FIFOd.onSieve s).main = cs ∧
    (S3FIFOd_shares S3FIFOd.onSieve s).ghost = cs + (S3FIFOd_shares S3FIFOd.onSieve s).small - 2 * fs ∧
    min fs (Adapt.floorOf cs) ≤ (S3FIFOd_shares S3FIFOd.onSieve s).small ∧ min (cs - fs) (Adapt.floorOf cs) ≤ (S3FIFOd_shares S3FIFOd.onSieve s).main := by
  have hi := (S3FIFOd.contract S3FIFOd.loose_sieve ⟨cs, fs, thr, stale, h⟩ p).reach (S3FIFOd_invSieve cs fs thr stale p h) ho hr
  exact ⟨hi.sizes.sum, hi.sizes.ghost, hi.sizes.lowF, hi.sizes.lowM⟩

/-- C82: what `get` does to the sizes and to the two counters of requests for recent victims. -/
theorem C82_adapts_S3FIFOd_Sieve_partial (ops : List Op) (out : List Bool) (s : S3FIFOd.State Sieve.State)
    (ho : ∀ op ∈ ops, Calls p (Adapt.FitsMain cs fs p) op) (hr : Reaches (S3FIFOd.algo S3FIFOd.onSieve) (S3FIFOd_newSieve cs fs thr stale) ops out s)
    (r : Req) (hok : Adapt.FitsMain cs fs p r) (b : Bool) (s' : S3FIFOd.State Sieve.State) (hg : (S3FIFOd.algo S3FIFOd.onSieve).get s r = .ok (b, s')) :
    S3FIFOd_shares S3FIFOd.onSieve s' = S3FIFOd_next S3FIFOd.onSieve cs s ∧
    s'.fifoHit = (Adapt.age (decide (0 < bytes 0 s.mainEv.base.cached)) s.fifoHit s.mainHit).1 +
      (if r.id ∉ (S3FIFOd_small s).map Prod.fst ∧ r.id ∈ S3FIFOd_smallVictims s then 1 else 0) ∧
    s'.mainHit = (Adapt.age (decide (0 < bytes 0 s.mainEv.base.cached)) s.fifoHit s.mainHit).2 +
      (if r.id ∉ (S3FIFOd_small s).map Prod.fst ∧ r.id ∈ S3FIFOd_mainVictims s then 1 else 0) := by
  have hi := (S3FIFOd.contract S3FIFOd.loose_sieve ⟨cs, fs, thr, stale, h⟩ p).reach (S3FIFOd_invSieve cs fs thr stale p h) ho hr
  have key : S3FIFOd.gauge S3FIFOd.onSieve s' = S3FIFOd.nextGauge S3FIFOd.onSieve ⟨cs, fs, thr, stale, h⟩ s r.id := by
    have hb := S3FIFOd.get_answer S3FIFOd.loose_sieve hi hok hg
    by_cases hin : r.id ∈ (S3FIFOd_cached S3FIFOd_mainSieve s).ids
    · have hb' : b = true := by rw [hb]; exact decide_eq_true hin
      subst hb'
      exact (S3FIFOd.get_hit_spec S3FIFOd.loose_sieve hi hin hg).2.1
    · have hb' : b = false := by rw [hb]; exact decide_eq_false hin
      subst hb'
      obtain ⟨s'', k1, _, k3, _⟩ := S3FIFOd.get_miss S3FIFOd.loose_sieve hi hok hin
      rw [k1] at hg
      cases hg
      exact k3
  simp only [S3FIFOd_next, bytes_eq_charge, S3FIFOd_small, List.map_map]
  refine ⟨congrArg Prod.fst key, congrArg (fun x => x.2.1) key, congrArg (fun x => x.2.2) key⟩

/-- C82: without client inserts an object is at most once in the small cache, the main cache and the ghost queue taken together. -/
theorem C82_onePart_S3FIFOd_Sieve_partial (hins : p.ins = false) (ops : List Op) (out : List Bool) (s : S3FIFOd.State Sieve.State)
    (ho : ∀ op ∈ ops, Calls p (Adapt.FitsMain cs fs p) op) (hr : Reaches (S3FIFOd.algo S3FIFOd.onSieve) (S3FIFOd_newSieve cs fs thr stale) ops out s) :
    ((S3FIFOd_cached S3FIFOd_mainSieve s).ids ++ S3FIFOd_ghost s).Nodup := by
  have hi := (S3FIFOd.contract S3FIFOd.loose_sieve ⟨cs, fs, thr, stale, h⟩ p).reach (S3FIFOd_invSieve cs fs thr stale p h) ho hr
  rw [List.nodup_append]
  exact ⟨hi.nodup S3FIFOd.loose_sieve, S3FIFOd.loose_fifo.nodup hi.queues.ghost, fun a ha b hb e => hi.sep hins b hb (by rw [← e]; exact ha)⟩

/-- C82: the hits of an object in the small cache, as counted by the cache, are those the client saw since the object entered the cache. -/
theorem C82_hitsCounted_S3FIFOd_Sieve_partial (ops : List Op) (out : List Bool) (s : S3FIFOd.State Sieve.State)
    (ho : ∀ op ∈ ops, Calls p (Adapt.FitsMain cs fs p) op) (hr : Reaches (S3FIFOd.algo S3FIFOd.onSieve) (S3FIFOd_newSieve cs fs thr stale) ops out s) :
    ∀ x ∈ S3FIFOd_small s, x.2 = hitsSince (ops.zip out) x.1 := by
  intro x hx
  obtain ⟨o, hox, rfl⟩ := List.mem_map.1 hx
  exact (S3FIFOd.reach_freq S3FIFOd.loose_sieve (S3FIFOd_invSieve cs fs thr stale p h) rfl ops out s ho hr).1 o hox

/-- C82: where a missed object that is admitted enters: the main cache if it is remembered in the ghost queue, else the front of the small cache, with no hits. -/
theorem C82_placed_S3FIFOd_Sieve_partial (ops : List Op) (out : List Bool) (s : S3FIFOd.State Sieve.State)
    (ho : ∀ op ∈ ops, Calls p (Adapt.FitsMain cs fs p) op) (hr : Reaches (S3FIFOd.algo S3FIFOd.onSieve) (S3FIFOd_newSieve cs fs thr stale) ops out s)
    (r : Req) (hok : Adapt.FitsMain cs fs p r) (hn : r.id ∉ (S3FIFOd_cached S3FIFOd_mainSieve s).ids) (hle : r.size ≤ (S3FIFOd_next S3FIFOd.onSieve cs s).small) :
    ∃ s', (S3FIFOd.algo S3FIFOd.onSieve).get s r = .ok (false, s') ∧
      (r.id ∈ S3FIFOd_ghost s → (r.id, r.size % u32) ∈ S3FIFOd_mainSieve s'.main) ∧ (r.id ∉ S3FIFOd_ghost s → (S3FIFOd_small s').head? = some (r.id, 0)) := by
  have hi := (S3FIFOd.contract S3FIFOd.loose_sieve ⟨cs, fs, thr, stale, h⟩ p).reach (S3FIFOd_invSieve cs fs thr stale p h) ho hr
  obtain ⟨s', k1, _, _, _, _, k6, k7⟩ := S3FIFOd.get_miss S3FIFOd.loose_sieve hi hok hn
  simp only [S3FIFOd_next, bytes_eq_charge] at hle
  refine ⟨s', k1, k6 hle, fun hx => ?_⟩
  have e := (k7 hle hx).1
  simp only [S3FIFOd_small, List.head?_map, e]
  rfl

/-- C82: whom `evict` takes.  If the small cache holds no bytes, the victim the main cache names.  Otherwise the oldest object of the small cache leaves it.  With
at least `thr` hits it moves to the main cache, which then evicts until it is within its size again, and no further.  With fewer hits it leaves the cache, and is
remembered in the ghost queue and among the small cache's recent victims, as far as it fits there.  (This needs the freed object to be still readable: `stale = []`.) -/
theorem C82_victim_S3FIFOd_Sieve_partial (hst : stale = []) (ops : List Op) (out : List Bool) (s : S3FIFOd.State Sieve.State)
    (ho : ∀ op ∈ ops, Calls p (Adapt.FitsMain cs fs p) op) (hr : Reaches (S3FIFOd.algo S3FIFOd.onSieve) (S3FIFOd_newSieve cs fs thr stale) ops out s)
    (hpos : 0 < bytes 0 (S3FIFOd_cached S3FIFOd_mainSieve s)) (r : Req) :
    ∃ s' vs, (S3FIFOd.algo S3FIFOd.onSieve).evict s r = .ok s' ∧ (S3FIFOd_cached S3FIFOd_mainSieve s).Perm (vs ++ S3FIFOd_cached S3FIFOd_mainSieve s') ∧
    (bytes 0 (cont s.fifo.objs) = 0 → S3FIFOd_small s' = S3FIFOd_small s ∧ S3FIFOd_ghost s' = S3FIFOd_ghost s ∧
      ∃ v, S3FIFOd.onSieve.victim s.main = some v ∧ vs = [(v.id, v.size)] ∧ (v.size ≤ cs / 10 → v.id ∈ S3FIFOd_mainVictims s')) ∧
    (bytes 0 (cont s.fifo.objs) ≠ 0 → ∃ o, s.fifo.objs = s'.fifo.objs ++ [o] ∧
      (thr ≤ o.miscFreq → S3FIFOd_ghost s' = S3FIFOd_ghost s ∧ (vs ++ S3FIFOd_mainSieve s'.main).Perm ((o.id, o.size) :: S3FIFOd_mainSieve s.main) ∧
        bytes 0 (S3FIFOd_mainSieve s'.main) ≤ (S3FIFOd_shares S3FIFOd.onSieve s).main ∧
        ∀ us v, vs = us ++ [v] → bytes 0 (v :: S3FIFOd_mainSieve s'.main) > (S3FIFOd_shares S3FIFOd.onSieve s).main) ∧
      (o.miscFreq < thr → vs = [(o.id, o.size)] ∧ s'.main = s.main ∧ ((o.size : Int) ≤ (S3FIFOd_shares S3FIFOd.onSieve s).ghost → o.id ∈ S3FIFOd_ghost s') ∧
        (o.size ≤ cs / 10 → o.id ∈ S3FIFOd_smallVictims s'))) := by
  have hi := (S3FIFOd.contract S3FIFOd.loose_sieve ⟨cs, fs, thr, stale, h⟩ p).reach (S3FIFOd_invSieve cs fs thr stale p h) ho hr
  simp only [bytes_eq_charge] at hpos ⊢
  have hsr : ∀ o : Obj Unit, S3FIFOd.staleRead s o = o.miscFreq := by
    intro o
    have := hi.stale hst
    simp [S3FIFOd.staleRead, this]
  obtain ⟨s', vs, k1, _, k3, _, _, _, _, _, _, _, k11, k12⟩ := S3FIFOd.evict_spec S3FIFOd.loose_sieve hi hpos r
  by_cases hz : charge 0 (cont s.fifo.objs) = 0
  · obtain ⟨e1, e2, v, e3, e4, e5⟩ := k11 hz
    refine ⟨s', [(v.id, v.size)], k1, ?_, fun _ => ⟨by simp only [S3FIFOd_small, e1], by simp only [S3FIFOd_ghost, e2], v, e3, rfl, e5⟩, fun hx => absurd hz hx⟩
    unfold S3FIFOd_cached S3FIFOd.cached
    rw [e1]
    exact (e4.append_left _).trans List.perm_middle
  · obtain ⟨o, e1, e2, e3⟩ := k12 hz
    rw [hsr] at e2 e3
    refine ⟨s', vs, k1, k3, fun hx => absurd hx hz, fun _ => ⟨o, e1, fun hx => ?_, e3⟩⟩
    obtain ⟨f1, f2, f3, f4⟩ := e2 hx
    exact ⟨by simp only [S3FIFOd_ghost, f1], f2, f3, f4⟩

end

/-! ## A run that meets the hypotheses -/

/-- object 1 reaches the main cache and is evicted from it; 101 objects are evicted from the small cache and requested again; two more objects enter, one of them with a hit -/
def S3FIFOd_ops : List Op :=
  [.get (S3FIFOd_r 1 5), .get (S3FIFOd_r 1 5), .evict (S3FIFOd_r 0 1), .evict (S3FIFOd_r 0 1)] ++
  (List.range 101).flatMap (fun i => [.get (S3FIFOd_r (i + 2) 4), .evict (S3FIFOd_r 0 1), .get (S3FIFOd_r (i + 2) 4)]) ++
  [.find (S3FIFOd_r 7 1) false, .get (S3FIFOd_r 200 9), .get (S3FIFOd_r 201 8), .get (S3FIFOd_r 200 9)]

theorem S3FIFOd_ops_calls : ∀ op ∈ S3FIFOd_ops, Calls {} (Adapt.FitsMain 1000 100 {}) op := by
  intro op h
  simp only [S3FIFOd_ops, List.mem_append, List.mem_cons, List.not_mem_nil, or_false, List.mem_flatMap] at h
  rcases h with ((rfl | rfl | rfl | rfl) | ⟨i, _, rfl | rfl | rfl⟩) | rfl | rfl | rfl | rfl <;>
    simp [Calls, Adapt.FitsMain, Adapt.floorOf, S3FIFOd_r, u32]

/-- the hypotheses of the theorems above are met: before the last three requests the counts are 101 and 0, so the small cache has grown by a byte; next comes a
hit, a request that is too large and an insertion -/
example : (∀ op ∈ S3FIFOd_ops, Calls {} (Adapt.FitsMain 1000 100 {}) op) ∧
    (S3FIFOd_small (after (S3FIFOd.algo S3FIFOd.onLRU) (S3FIFOd_newLRU 1000 100 1 []) S3FIFOd_ops) = [(201, 0), (200, 1)]) ∧
    (S3FIFOd_shares S3FIFOd.onLRU (after (S3FIFOd.algo S3FIFOd.onLRU) (S3FIFOd_newLRU 1000 100 1 []) S3FIFOd_ops) = ⟨101, 901, 899⟩) ∧
    ((after (S3FIFOd.algo S3FIFOd.onLRU) (S3FIFOd_newLRU 1000 100 1 []) S3FIFOd_ops).fifoHit = 80) ∧
    (S3FIFOd_shares S3FIFOd.onSieve (after (S3FIFOd.algo S3FIFOd.onSieve) (S3FIFOd_newSieve 1000 100 1 []) S3FIFOd_ops) = ⟨101, 901, 899⟩) ∧
    (S3FIFOd_shares S3FIFOd.onClock (after (S3FIFOd.algo S3FIFOd.onClock) (S3FIFOd_newClock 3 1000 100 1 []) S3FIFOd_ops) = ⟨101, 901, 899⟩) ∧
    (S3FIFOd_shares S3FIFOd.onFIFO (after (S3FIFOd.algo S3FIFOd.onFIFO) (S3FIFOd_newFIFO 1000 100 1 []) S3FIFOd_ops) = ⟨101, 901, 899⟩) := by
  refine ⟨S3FIFOd_ops_calls, ?_, ?_, ?_, ?_, ?_, ?_⟩ <;> decide +kernel

/-- without client inserts and evictions the calls of the demo run are allowed too, and the small cache is full after enough of them -/
example : (∀ op ∈ (List.range 101).map (fun i => Op.get (S3FIFOd_r i 10)), Calls getsOnly (Adapt.FitsMain 1000 100 getsOnly) op) ∧
    (after (S3FIFOd.algo S3FIFOd.onLRU) (S3FIFOd_newLRU 1000 100 1 []) ((List.range 101).map (fun i => Op.get (S3FIFOd_r i 10)))).ghost.base.cached = [(0, 10)] := by
  refine ⟨?_, by decide +kernel⟩
  intro op h
  obtain ⟨i, _, rfl⟩ := List.mem_map.1 h
  simp [Calls, Adapt.FitsMain, Adapt.floorOf, S3FIFOd_r, getsOnly, u32]

/-! ## What fails -/

/-- C09 fails if reading freed memory counts as a fault: every eviction from the small cache reads the counter of the object it has just removed
(S3FIFOd.c:457-460). -/
theorem C09_useAfterFree_fails_S3FIFOd : ¬ Safe (S3FIFOd.algo S3FIFOd.onFIFO) (S3FIFOd.initFIFO 1000 100 1 [] true) (Calls {} (Adapt.FitsMain 1000 100 {})) := by
  intro h
  obtain ⟨out, s, hr⟩ := h [.get (S3FIFOd_r 1 5), .evict (S3FIFOd_r 0 1)] (by simp [Calls, Adapt.FitsMain, Adapt.floorOf, S3FIFOd_r, u32])
  have h2 : (S3FIFOd.algo S3FIFOd.onFIFO).run (S3FIFOd.initFIFO 1000 100 1 [] true) [.get (S3FIFOd_r 1 5), .evict (S3FIFOd_r 0 1)] = .error .useAfterFree :=
    res_err (by decide +kernel)
  unfold Reaches at hr
  rw [h2] at hr
  cases hr

/-- C09 fails if an object of the ghost queue is requested with a size that fits the small cache and not the main cache: the main cache refuses it, and
`S3FIFOd_insert` dereferences NULL (S3FIFOd.c:360-367). -/
theorem C09_nullDeref_fails_S3FIFOd : ¬ Safe (S3FIFOd.algo S3FIFOd.onFIFO) (S3FIFOd_newFIFO 10 8 1 []) (Calls {} (fun r => r.size ≤ 8)) := by
  intro h
  obtain ⟨out, s, hr⟩ := h [.get (S3FIFOd_r 1 1), .evict (S3FIFOd_r 0 1), .get (S3FIFOd_r 1 5)] (by simp [Calls, S3FIFOd_r])
  have h2 : (S3FIFOd.algo S3FIFOd.onFIFO).run (S3FIFOd_newFIFO 10 8 1 []) [.get (S3FIFOd_r 1 1), .evict (S3FIFOd_r 0 1), .get (S3FIFOd_r 1 5)] = .error .nullDeref :=
    res_err (by decide +kernel)
  unfold Reaches at hr
  rw [h2] at hr
  cases hr

/-- C09 fails if the client evicts while only empty objects are in the small cache: the main cache is asked for a victim although it holds none. -/
theorem C09_emptyObjects_fails_S3FIFOd : ¬ Safe (S3FIFOd.algo S3FIFOd.onFIFO) (S3FIFOd_newFIFO 1000 100 1 []) (Calls {} (fun r => r.size ≤ 5)) := by
  intro h
  obtain ⟨out, s, hr⟩ := h [.get (S3FIFOd_r 1 0), .evict (S3FIFOd_r 0 1)] (by simp [Calls, S3FIFOd_r])
  have h2 : (S3FIFOd.algo S3FIFOd.onFIFO).run (S3FIFOd_newFIFO 1000 100 1 []) [.get (S3FIFOd_r 1 0), .evict (S3FIFOd_r 0 1)] = .error .nullDeref :=
    res_err (by decide +kernel)
  unfold Reaches at hr
  rw [h2] at hr
  cases hr

/-- C06 fails: object 2 is remembered in the ghost queue and requested again.  There is room for it, the small cache being empty, and still it takes the place of
object 1 in the main cache. -/
theorem C06_evictOnDemand_fails_S3FIFOd : ∃ ops out s s', (∀ op ∈ ops, Calls {} (fun r => 0 < r.size ∧ r.size ≤ 5) op) ∧
    Reaches (S3FIFOd.algo S3FIFOd.onFIFO) (S3FIFOd_newFIFO 10 5 1 []) ops out s ∧ S3FIFOd_cached S3FIFOd_mainFIFO s = [(1, 5)] ∧
    (S3FIFOd.algo S3FIFOd.onFIFO).get s (S3FIFOd_r 2 5) = .ok (false, s') ∧ S3FIFOd_cached S3FIFOd_mainFIFO s' = [(2, 5)] :=
  ⟨[.get (S3FIFOd_r 1 5), .get (S3FIFOd_r 1 5), .evict (S3FIFOd_r 0 1), .get (S3FIFOd_r 2 5), .evict (S3FIFOd_r 0 1)], [false, true, true, false, true], _, _,
    by simp [Calls, S3FIFOd_r], reaches_after (by decide +kernel), by decide +kernel, res_ok (S3FIFOd_newFIFO 10 5 1 []) (by decide +kernel), by decide +kernel⟩

/-- `evict` on a non-empty cache may evict nothing: it may move an object to the main cache. -/
theorem C09_evictsOne_fails_S3FIFOd :
    ¬ EvictsOne (S3FIFOd.algo S3FIFOd.onFIFO) (S3FIFOd_cached S3FIFOd_mainFIFO) (S3FIFOd_newFIFO 1000 100 1 []) (Calls {} (Adapt.FitsMain 1000 100 {})) := by
  intro h
  obtain ⟨v, s', h1, h2⟩ := h [.get (S3FIFOd_r 1 5), .get (S3FIFOd_r 1 5)] [false, true] _ (by simp [Calls, Adapt.FitsMain, Adapt.floorOf, S3FIFOd_r, u32])
    (reaches_after (by decide +kernel)) (by decide +kernel) (S3FIFOd_r 0 1)
  have h3 : ((S3FIFOd.algo S3FIFOd.onFIFO).evict (after (S3FIFOd.algo S3FIFOd.onFIFO) (S3FIFOd_newFIFO 1000 100 1 []) [.get (S3FIFOd_r 1 5), .get (S3FIFOd_r 1 5)])
      (S3FIFOd_r 0 1)).map (S3FIFOd_cached S3FIFOd_mainFIFO) = .ok [(1, 5)] := rfl
  rw [h1] at h3
  have h4 : S3FIFOd_cached S3FIFOd_mainFIFO s' = [(1, 5)] := by simpa [Except.map] using h3
  have := h2.length_eq
  rw [List.length_cons, h4] at this
  revert this
  decide +kernel

/-- C07 fails for the answer: removing an object that is only in the ghost queue answers `true`. -/
theorem C07_removeExact_fails_S3FIFOd :
    ¬ RemoveExact (S3FIFOd.algo S3FIFOd.onFIFO) (S3FIFOd_cached S3FIFOd_mainFIFO) (S3FIFOd_newFIFO 1000 100 1 []) (Calls {} (Adapt.FitsMain 1000 100 {})) := by
  intro h
  obtain ⟨s', h1, _⟩ := h [.get (S3FIFOd_r 1 5), .evict (S3FIFOd_r 0 1)] [false, true] _ (by simp [Calls, Adapt.FitsMain, Adapt.floorOf, S3FIFOd_r, u32])
    (reaches_after (by decide +kernel)) 1
  have h2 : ((S3FIFOd.algo S3FIFOd.onFIFO).remove (after (S3FIFOd.algo S3FIFOd.onFIFO) (S3FIFOd_newFIFO 1000 100 1 []) [.get (S3FIFOd_r 1 5), .evict (S3FIFOd_r 0 1)]) 1).map
      (fun p => p.1) = .ok true := rfl
  rw [h1] at h2
  revert h2
  exact fun h2 => absurd h2 (by simp only [Except.map]; decide +kernel)

/-- C07 fails when the client inserts: object 1 is remembered in the ghost queue, inserted again (`insert` does not look there) and moved to the main cache;
`remove 1` answers `true` and object 1 is still cached. -/
theorem C07_removeEffect_fails_S3FIFOd : ∃ ops out s s', (∀ op ∈ ops, Calls {} (Adapt.FitsMain 1000 100 {}) op) ∧
    Reaches (S3FIFOd.algo S3FIFOd.onFIFO) (S3FIFOd_newFIFO 1000 100 1 []) ops out s ∧ (1, 5) ∈ S3FIFOd_cached S3FIFOd_mainFIFO s ∧ 1 ∈ S3FIFOd_ghost s ∧
    (S3FIFOd.algo S3FIFOd.onFIFO).remove s 1 = .ok (true, s') ∧ (1, 5) ∈ S3FIFOd_cached S3FIFOd_mainFIFO s' :=
  ⟨[.get (S3FIFOd_r 1 5), .evict (S3FIFOd_r 0 1), .insert (S3FIFOd_r 1 5), .get (S3FIFOd_r 1 5), .evict (S3FIFOd_r 0 1)], [false, true, true, true, true],
    after (S3FIFOd.algo S3FIFOd.onFIFO) (S3FIFOd_newFIFO 1000 100 1 [])
      [.get (S3FIFOd_r 1 5), .evict (S3FIFOd_r 0 1), .insert (S3FIFOd_r 1 5), .get (S3FIFOd_r 1 5), .evict (S3FIFOd_r 0 1)], _,
    by simp [Calls, Adapt.FitsMain, Adapt.floorOf, S3FIFOd_r, u32], reaches_after (by decide +kernel), by decide +kernel, by decide +kernel,
    res_ok (S3FIFOd_newFIFO 1000 100 1 []) (by decide +kernel), by decide +kernel⟩

/-- C82: an object without hits may be kept, and one with hits dropped, if the freed memory has been overwritten when it is read. -/
theorem C82_victim_fails_S3FIFOd :
    (after (S3FIFOd.algo S3FIFOd.onFIFO) (S3FIFOd_newFIFO 1000 100 1 [some 7]) [.get (S3FIFOd_r 1 5), .evict (S3FIFOd_r 0 1)]).main.base.cached = [(1, 5)] ∧
    (after (S3FIFOd.algo S3FIFOd.onFIFO) (S3FIFOd_newFIFO 1000 100 1 [some 0]) [.get (S3FIFOd_r 1 5), .get (S3FIFOd_r 1 5), .evict (S3FIFOd_r 0 1)]).main.base.cached = [] := by
  constructor <;> decide +kernel

end Verif.Props
