import Verif.Proof.S3LRU
import Verif.Props.SLRUv0
/-!
# Properties of S3LRU (libCacheSim/cache/eviction/other/S3LRU.c) with an LRU main cache

The statements are those of `Verif/Spec/Cache.lean` and `Verif/Spec/History.lean`.  They hold for every cache size, every size of the small queue up to it,
every size of the ghost cache (0: none), every move-to-main threshold, promotion on hit switched on or off, and every sequence of client calls without `find`
with update in which every object has one size, and no object is empty if the client calls `evict` (`OneSize`), where not stated otherwise.  The theorems
named `_fails` show what goes wrong outside these bounds.  S3LRU keeps no metadata bytes and never asks the admission policy (S3LRU.c:444-448); its
`to_evict` is an assertion failure (S3LRU.c:321-324), so C10 does not apply to it.
-/

namespace Verif.Props
open Verif Verif.Spec
set_option linter.unusedVariables false
set_option maxRecDepth 20000

/-- what S3LRU has cached: the objects of the small queue and of the main cache -/
abbrev S3LRU_cached (s : S3LRU.State) : Contents := S3LRU.cached s

/-- the ids in the small queue (youngest first), in the main cache (most recent first) and in the ghost cache -/
def S3LRU_small (s : S3LRU.State) : List ObjId := s.small.objs.map (·.id)
def S3LRU_main (s : S3LRU.State) : List ObjId := s.main.objs.map (·.id)
def S3LRU_ghost (s : S3LRU.State) : List ObjId := S3LRU.ghostIds s.ghost

/-- ids and hits of the objects of the small queue, youngest first -/
def S3LRU_counts (s : S3LRU.State) : List (ObjId × Nat) := s.small.objs.map (fun o => (o.id, o.mt))

/-- a new cache of `cs` bytes with a small queue of `fs` bytes and a ghost cache of `gs` bytes -/
abbrev S3LRU_new (cs fs gs : Nat) (pr : Bool) (thr : Int) : S3LRU.State := S3LRU.init cs fs gs pr thr

/-- a demo run: hits in the small queue with and without promotion, a hit in the main cache, ghost hits, evictions from both parts, removals, an insertion,
a too large object -/
def S3LRU_ops : List Op := [.get ⟨1, 3, -2⟩, .get ⟨2, 3, -2⟩, .get ⟨1, 3, -2⟩, .get ⟨3, 3, -2⟩, .get ⟨4, 2, -2⟩, .find ⟨3, 3, -2⟩ false, .get ⟨7, 30, -2⟩,
  .get ⟨2, 3, -2⟩, .get ⟨4, 2, -2⟩, .remove 4, .remove 9, .get ⟨1, 3, -2⟩, .get ⟨5, 1, -2⟩, .get ⟨6, 1, -2⟩, .get ⟨6, 1, -2⟩, .evict ⟨0, 1, -2⟩, .insert ⟨8, 1, -2⟩,
  .get ⟨9, 4, -2⟩, .get ⟨3, 3, -2⟩, .get ⟨5, 1, -2⟩, .get ⟨10, 2, -2⟩, .get ⟨10, 2, -2⟩, .get ⟨11, 2, -2⟩]

/-- the sizes of the objects in the demo run -/
def S3LRU_sz : ObjId → Nat := fun id => match id with | 4 => 2 | 5 => 1 | 6 => 1 | 7 => 30 | 8 => 1 | 9 => 4 | 10 => 2 | 11 => 2 | _ => 3

def S3LRU_demo0 : S3LRU.State := S3LRU_new 10 4 9 true 2
def S3LRU_demo : S3LRU.State := after S3LRU.algo S3LRU_demo0 S3LRU_ops

theorem S3LRU_demo_reached : Reaches S3LRU.algo S3LRU_demo0 S3LRU_ops
      [false, false, true, false, false, true, false, true, true, true, false, false, false, false, true, true, true, false, false, false, false, true, false] S3LRU_demo ∧
    S3LRU_counts S3LRU_demo = [(11, 0), (10, 1)] ∧ S3LRU_main S3LRU_demo = [5, 3] ∧ S3LRU_ghost S3LRU_demo = [9, 8, 6, 2] :=
  ⟨reaches_after (by decide +kernel), by decide +kernel, by decide +kernel, by decide +kernel⟩

theorem S3LRU_demo_calls : ∀ op ∈ S3LRU_ops, Calls noUpdate (OneSize S3LRU_sz noUpdate) op := by
  intro op hop
  simp only [S3LRU_ops, List.mem_cons, List.not_mem_nil, or_false] at hop
  rcases hop with rfl | rfl | rfl | rfl | rfl | rfl | rfl | rfl | rfl | rfl | rfl | rfl | rfl | rfl | rfl | rfl | rfl | rfl | rfl | rfl | rfl | rfl | rfl <;>
    simp [Calls, OneSize, S3LRU_sz, u32]

section
variable (sz : ObjId → Nat) (cs fs gs : Nat) (pr : Bool) (thr : Int) (p : Perms) (h : fs ≤ cs) (hp : p.upd = false)
include h hp

theorem C01_capacity_S3LRU_partial : Capacity S3LRU.algo (S3LRU_new cs fs gs pr thr) (Calls p (OneSize sz p)) cs :=
  (S3LRU.contract ⟨cs, fs, gs, pr, thr, sz, h⟩ hp).capacity (S3LRU.inv_init _ p)

theorem C02_accounting_S3LRU_partial : Accounting S3LRU.algo S3LRU_cached (S3LRU_new cs fs gs pr thr) (Calls p (OneSize sz p)) 0 :=
  (S3LRU.contract ⟨cs, fs, gs, pr, thr, sz, h⟩ hp).accounting (S3LRU.inv_init _ p)

theorem C03_hitIffCached_S3LRU_partial : HitIffCached S3LRU.algo S3LRU_cached (S3LRU_new cs fs gs pr thr) (Calls p (OneSize sz p)) :=
  (S3LRU.contract ⟨cs, fs, gs, pr, thr, sz, h⟩ hp).hitIffCached (S3LRU.inv_init _ p)

/-- What is proved of C04: without client inserts. -/
theorem C04_noPhantom_S3LRU_partial (hins : p.ins = false) :
    NoPhantom S3LRU.algo S3LRU_cached (S3LRU_new cs fs gs pr thr) (Calls p (OneSize sz p)) := by
  refine (S3LRU.contract ⟨cs, fs, gs, pr, thr, sz, h⟩ hp).noPhantom (S3LRU.inv_init _ p) rfl ?_
  intro _ s s' b id hi he
  obtain ⟨s'', k1, _, _, k3, _⟩ := S3LRU.remove_spec hi id
  rw [show S3LRU.algo.remove s id = S3LRU.remove s id from rfl, k1] at he
  cases he
  rw [k3 hins]
  simp

theorem C04_addsOnlyRequested_S3LRU_partial : AddsOnlyRequested S3LRU.algo S3LRU_cached (S3LRU_new cs fs gs pr thr) (Calls p (OneSize sz p)) :=
  (S3LRU.contract ⟨cs, fs, gs, pr, thr, sz, h⟩ hp).addsOnlyRequested (S3LRU.inv_init _ p)

theorem C05_admittedMissCached_S3LRU_partial :
    AdmittedMissCached S3LRU.algo S3LRU_cached (fun _ r => decide (r.size ≤ fs)) (S3LRU_new cs fs gs pr thr) (Calls p (OneSize sz p)) := by
  intro ops out s ho hr r hok hn ha
  have C := S3LRU.contract ⟨cs, fs, gs, pr, thr, sz, h⟩ hp
  have h0 := S3LRU.inv_init ⟨cs, fs, gs, pr, thr, sz, h⟩ p
  have hi := C.reach h0 ho hr
  obtain ⟨s', hs'⟩ := (C.hitIffCached h0 ops out s ho hr).2.2 r hok
  rw [decide_eq_false hn] at hs'
  obtain ⟨_, _, k1, k2⟩ := S3LRU.get_miss hp hi hok hs'
  have hle : r.size ≤ fs := of_decide_eq_true ha
  by_cases hg : r.id ∈ S3LRU.ghostIds s.ghost
  · exact ⟨s', hs', (k1 hle hg).2⟩
  · exact ⟨s', hs', (k2 hle hg).2⟩

theorem C06_evictOnDemand_S3LRU_partial : EvictOnDemand S3LRU.algo S3LRU_cached (S3LRU_new cs fs gs pr thr) (Calls p (OneSize sz p)) cs 0 :=
  S3LRU.evictOnDemand ⟨cs, fs, gs, pr, thr, sz, h⟩ hp

/-- What is proved of C07: without client inserts `remove` removes exactly the object.  Its answer is also `true` for a ghost. -/
theorem C07_removeExact_S3LRU_partial (hins : p.ins = false) (ops : List Op) (out : List Bool) (s : S3LRU.State)
    (ho : ∀ op ∈ ops, Calls p (OneSize sz p) op) (hr : Reaches S3LRU.algo (S3LRU_new cs fs gs pr thr) ops out s) (id : ObjId) :
    ∃ s', S3LRU.algo.remove s id = .ok (decide (id ∈ (S3LRU_cached s).ids ∨ id ∈ S3LRU_ghost s), s') ∧
      S3LRU_cached s' = (S3LRU_cached s).filter (fun x => x.1 ≠ id) := by
  have hi := (S3LRU.contract ⟨cs, fs, gs, pr, thr, sz, h⟩ hp).reach (S3LRU.inv_init _ p) ho hr
  obtain ⟨s', k1, _, _, k3, _⟩ := S3LRU.remove_spec hi id
  exact ⟨s', k1, k3 hins⟩

/-- C08: a request that is not admitted leaves the small queue and the main cache unchanged.  It does drop the object's ghost entry. -/
theorem C08_rejectQuiet_S3LRU_partial : RejectQuiet S3LRU.algo S3LRU_cached (fun _ r => decide (r.size ≤ fs)) (fun s => (s.small, s.main))
    (S3LRU_new cs fs gs pr thr) (Calls p (OneSize sz p)) := by
  intro ops out s ho hr r hok hn ha
  have C := S3LRU.contract ⟨cs, fs, gs, pr, thr, sz, h⟩ hp
  have h0 := S3LRU.inv_init ⟨cs, fs, gs, pr, thr, sz, h⟩ p
  have hi := C.reach h0 ho hr
  obtain ⟨s', hs'⟩ := (C.hitIffCached h0 ops out s ho hr).2.2 r hok
  rw [decide_eq_false hn] at hs'
  have hgt : r.size > fs := by simpa using ha
  obtain ⟨e1, e2⟩ := (S3LRU.get_miss hp hi hok hs').1 hgt
  exact ⟨s', hs', by simp only [e1, e2]⟩

theorem C09_safe_S3LRU_partial : Safe S3LRU.algo (S3LRU_new cs fs gs pr thr) (Calls p (OneSize sz p)) :=
  (S3LRU.contract ⟨cs, fs, gs, pr, thr, sz, h⟩ hp).safe (S3LRU.inv_init _ p)

/-- `evict` on a non-empty cache evicts exactly one object when objects are promoted on hits. -/
theorem C09_evictsOne_S3LRU_partial (he : p.ev = true) : EvictsOne S3LRU.algo S3LRU_cached (S3LRU_new cs fs gs true thr) (Calls p (OneSize sz p)) := by
  intro ops out s ho hr hne r
  have hi := (S3LRU.contract ⟨cs, fs, gs, true, thr, sz, h⟩ hp).reach (S3LRU.inv_init _ p) ho hr
  exact S3LRU.evictsOne hi rfl (S3LRU.pos_of_nonempty hi he hne) r

/-! ## C78: the three parts -/

/-- C78: without client inserts an object is at most once in the small queue, the main cache and the ghost cache taken together. -/
theorem C78_onePart_S3LRU_partial (hins : p.ins = false) (ops : List Op) (out : List Bool) (s : S3LRU.State)
    (ho : ∀ op ∈ ops, Calls p (OneSize sz p) op) (hr : Reaches S3LRU.algo (S3LRU_new cs fs gs pr thr) ops out s) :
    (S3LRU_small s ++ S3LRU_main s ++ S3LRU_ghost s).Nodup := by
  have hi := (S3LRU.contract ⟨cs, fs, gs, pr, thr, sz, h⟩ hp).reach (S3LRU.inv_init _ p) ho hr
  rw [List.nodup_append, List.nodup_append]
  refine ⟨⟨hi.small.nodup, hi.main.nodup, fun a ha b hb e => ?_⟩, ?_, fun a ha b hb e => ?_⟩
  · exact hi.dis a ha (by rw [e]; exact hb)
  · exact S3LRU.ghostIds_nodup hi.ghost
  · subst e
    refine hi.sep hins a hb ((S3LRU.mem_cached s a).2 ?_)
    exact List.mem_append.1 ha

/-- C78: the hits of an object in the small queue, as counted by the cache, are those the client saw since the object entered the cache. -/
theorem C78_hitsCounted_S3LRU_partial (ops : List Op) (out : List Bool) (s : S3LRU.State)
    (ho : ∀ op ∈ ops, Calls p (OneSize sz p) op) (hr : Reaches S3LRU.algo (S3LRU_new cs fs gs pr thr) ops out s) :
    ∀ x ∈ S3LRU_counts s, x.2 = hitsSince (ops.zip out) x.1 := by
  intro x hx
  obtain ⟨o, hox, rfl⟩ := List.mem_map.1 hx
  exact (S3LRU.reach_freq hp (S3LRU.inv_init ⟨cs, fs, gs, pr, thr, sz, h⟩ p) rfl ops out s ho hr).1 o hox

/-- C78: what a hit does.  An object of the small queue moves to the front of the main cache if promotion is on and this is at least its `thr`-th hit;
otherwise the hit is counted and nothing moves.  An object of the main cache moves to its front. -/
theorem C78_hit_S3LRU_partial (ops : List Op) (out : List Bool) (s : S3LRU.State)
    (ho : ∀ op ∈ ops, Calls p (OneSize sz p) op) (hr : Reaches S3LRU.algo (S3LRU_new cs fs gs pr thr) ops out s)
    (r : Req) (hok : OneSize sz p r) (s' : S3LRU.State) (hg : S3LRU.algo.get s r = .ok (true, s')) :
    (∃ n, (r.id, n) ∈ S3LRU_counts s ∧
      ((pr = true ∧ thr ≤ n + 1 ∧ S3LRU_counts s' = (S3LRU_counts s).filter (fun x => x.1 ≠ r.id) ∧ S3LRU_main s' = r.id :: S3LRU_main s) ∨
       (¬ (pr = true ∧ thr ≤ n + 1) ∧ S3LRU_counts s' = countHit r.id (S3LRU_counts s) ∧ S3LRU_main s' = S3LRU_main s))) ∨
    (r.id ∈ S3LRU_main s ∧ S3LRU_counts s' = S3LRU_counts s ∧ S3LRU_main s' = r.id :: (S3LRU_main s).erase r.id) := by
  have hi := (S3LRU.contract ⟨cs, fs, gs, pr, thr, sz, h⟩ hp).reach (S3LRU.inv_init _ p) ho hr
  rcases S3LRU.get_hit_spec hp hi hok.1 hg with ⟨o, h1, h2, h3⟩ | ⟨h1, h2, h3⟩
  · refine Or.inl ⟨o.mt, List.mem_map.2 ⟨o, h1, by rw [h2]⟩, ?_⟩
    refine h3.imp (fun h => ⟨h.1, h.2.1, h.2.2.1, h.2.2.2⟩) (fun h => ⟨h.1, h.2.1, ?_⟩)
    simp only [S3LRU_main, h.2.2]
  · refine Or.inr ⟨h1, ?_, h3⟩
    simp only [S3LRU_counts, h2]

/-- C78: where a missed object that is admitted enters: at the front of the main cache if it is remembered in the ghost cache, else at the front of the
small queue, with no hits. -/
theorem C78_placed_S3LRU_partial (ops : List Op) (out : List Bool) (s : S3LRU.State)
    (ho : ∀ op ∈ ops, Calls p (OneSize sz p) op) (hr : Reaches S3LRU.algo (S3LRU_new cs fs gs pr thr) ops out s)
    (r : Req) (hok : OneSize sz p r) (s' : S3LRU.State) (hg : S3LRU.algo.get s r = .ok (false, s')) (hle : r.size ≤ fs) :
    (r.id ∈ S3LRU_ghost s → (S3LRU_main s').head? = some r.id) ∧ (r.id ∉ S3LRU_ghost s → (S3LRU_counts s').head? = some (r.id, 0)) := by
  have hi := (S3LRU.contract ⟨cs, fs, gs, pr, thr, sz, h⟩ hp).reach (S3LRU.inv_init _ p) ho hr
  obtain ⟨_, h2, h3, h4⟩ := S3LRU.get_miss hp hi hok hg
  refine ⟨fun hx => (h3 hle hx).1, fun hx => ?_⟩
  have h5 := (h4 hle hx).1
  unfold S3LRU_counts
  cases hs : s'.small.objs with
  | nil => rw [hs] at h5; cases h5
  | cons o l =>
    rw [hs] at h5
    have he : o.id = r.id := by simpa using h5
    rcases h2 o (by rw [hs]; simp) with ⟨hne, _⟩ | ⟨_, hm⟩
    · exact absurd he hne
    · simp [he, hm]

/-- C78: whom `evict` takes.  If the main cache exceeds its share `cs - fs`, or the small queue is empty, the least recently used object of the main cache.
Otherwise, from the oldest on, the objects of the small queue with at least `thr` hits move to the front of the main cache if promotion on hit is off, up to
the first one that stays behind, which is the victim (there may be none).  The victim's id enters the ghost cache, if there is one and the object would fit. -/
theorem C78_victim_S3LRU_partial (ops : List Op) (out : List Bool) (s : S3LRU.State)
    (ho : ∀ op ∈ ops, Calls p (OneSize sz p) op) (hr : Reaches S3LRU.algo (S3LRU_new cs fs gs pr thr) ops out s)
    (hpos : 0 < bytes 0 (S3LRU_cached s)) (r : Req) :
    ∃ s', S3LRU.algo.evict s r = .ok s' ∧
    ((bytes 0 (cont s.main.objs) > cs - fs ∨ bytes 0 (cont s.small.objs) = 0) →
      S3LRU_counts s' = S3LRU_counts s ∧ S3LRU_ghost s' = S3LRU_ghost s ∧ ∃ v, S3LRU_main s = S3LRU_main s' ++ [v]) ∧
    (¬ (bytes 0 (cont s.main.objs) > cs - fs ∨ bytes 0 (cont s.small.objs) = 0) →
      ∃ victim moved, s.small.objs = s'.small.objs ++ victim ++ moved ∧ victim.length ≤ 1 ∧ (victim = [] → bytes 0 (cont s'.small.objs) = 0) ∧
        (∀ o ∈ moved, pr = false ∧ thr ≤ o.mt) ∧ (∀ o ∈ victim, pr = false → (o.mt : Int) < thr) ∧
        S3LRU_main s' = moved.map (·.id) ++ S3LRU_main s ∧ (∀ o ∈ victim, 0 < gs → o.size ≤ gs → o.id ∈ S3LRU_ghost s')) := by
  have hi := (S3LRU.contract ⟨cs, fs, gs, pr, thr, sz, h⟩ hp).reach (S3LRU.inv_init _ p) ho hr
  simp only [bytes_eq_charge] at hpos ⊢
  obtain ⟨s', vs, k1, _, _, _, _, _, _, _, k9, k10⟩ := S3LRU.evict_spec hi hpos r
  refine ⟨s', k1, fun hx => ?_, k10⟩
  obtain ⟨e1, e2, v, e3⟩ := k9 hx
  refine ⟨by simp only [S3LRU_counts, e1], by simp only [S3LRU_ghost, e2], v.id, ?_⟩
  simp only [S3LRU_main, e3, List.map_append, List.map_cons, List.map_nil]

end

/-- the hypotheses of the theorems above are met by the demo run: next comes a hit with promotion, a hit without, one in the main cache, a ghost hit and an
insertion into the small queue -/
example : (∀ op ∈ S3LRU_ops, Calls noUpdate (OneSize S3LRU_sz noUpdate) op) ∧
    (S3LRU.algo.get S3LRU_demo ⟨10, 2, -2⟩).map (fun x => (x.1, S3LRU_counts x.2, S3LRU_main x.2)) = .ok (true, [(11, 0)], [10, 5, 3]) ∧
    (S3LRU.algo.get S3LRU_demo ⟨11, 2, -2⟩).map (fun x => (x.1, S3LRU_counts x.2, S3LRU_main x.2)) = .ok (true, [(11, 1), (10, 1)], [5, 3]) ∧
    (S3LRU.algo.get S3LRU_demo ⟨3, 3, -2⟩).map (fun x => (x.1, S3LRU_counts x.2, S3LRU_main x.2)) = .ok (true, [(11, 0), (10, 1)], [3, 5]) ∧
    (S3LRU.algo.get S3LRU_demo ⟨9, 4, -2⟩).map (fun x => (x.1, S3LRU_counts x.2, S3LRU_main x.2)) = .ok (false, [(11, 0)], [9, 5, 3]) ∧
    (S3LRU.algo.get S3LRU_demo ⟨12, 1, -2⟩).map (fun x => (x.1, S3LRU_counts x.2, S3LRU_main x.2)) = .ok (false, [(12, 0), (11, 0), (10, 1)], [5, 3]) :=
  ⟨S3LRU_demo_calls, rfl, rfl, rfl, rfl, rfl⟩

/-- both eviction branches occur, and with promotion off objects move at eviction -/
example : (S3LRU.algo.evict S3LRU_demo ⟨0, 1, -2⟩).map (fun s => (S3LRU_counts s, S3LRU_main s)) = .ok ([(11, 0)], [5, 3]) ∧
    (S3LRU.algo.evict (after S3LRU.algo S3LRU_demo0 [.get ⟨1, 2, -2⟩, .get ⟨1, 2, -2⟩, .get ⟨1, 2, -2⟩]) ⟨0, 1, -2⟩).map (fun s => (S3LRU_counts s, S3LRU_main s)) = .ok ([], []) ∧
    (S3LRU.algo.evict (after S3LRU.algo (S3LRU_new 10 4 9 false 1) [.get ⟨1, 2, -2⟩, .get ⟨1, 2, -2⟩, .get ⟨2, 2, -2⟩, .get ⟨3, 2, -2⟩]) ⟨0, 1, -2⟩).map
      (fun s => (S3LRU_counts s, S3LRU_main s, S3LRU_ghost s)) = .ok ([(3, 0)], [1], [2]) := ⟨rfl, rfl, rfl⟩

/-! ## What fails -/

/-- C01 fails if an object changes its size: the object is promoted with the size of the request that hits it, and no room is made. -/
theorem C01_capacity_fails_S3LRU : ¬ Capacity S3LRU.algo (S3LRU_new 10 4 9 true 1) (Calls getsOnly (fun _ => True)) 10 := by
  intro h
  have := h [.get ⟨1, 1, -2⟩, .get ⟨1, 100, -2⟩] [false, true] _ (by simp [Calls]) (reaches_after (by decide +kernel))
  revert this
  decide +kernel

/-- C09 fails if the client evicts while only empty objects are cached: the main cache is asked for a victim although it holds none. -/
theorem C09_safe_fails_S3LRU : ¬ Safe S3LRU.algo (S3LRU_new 10 4 9 true 1) (Calls noUpdate (fun _ => True)) := by
  intro h
  obtain ⟨out, s, hr⟩ := h [.get ⟨1, 0, -2⟩, .evict ⟨0, 1, -2⟩] (by simp [Calls])
  have h2 : S3LRU.algo.run (S3LRU_new 10 4 9 true 1) [.get ⟨1, 0, -2⟩, .evict ⟨0, 1, -2⟩] = .error .nullDeref := res_err (by decide +kernel)
  unfold Reaches at hr
  rw [h2] at hr
  cases hr

/-- With promotion on hit off, `evict` on a non-empty cache may evict nothing: it may move the whole small queue to the main cache. -/
theorem C09_evictsOne_fails_S3LRU : ¬ EvictsOne S3LRU.algo S3LRU_cached (S3LRU_new 10 4 9 false 1) (Calls noUpdate (OneSize (fun _ => 1) noUpdate)) := by
  intro h
  obtain ⟨v, s', h1, h2⟩ := h [.get ⟨1, 1, -2⟩, .get ⟨1, 1, -2⟩] [false, true] _ (by simp [Calls, OneSize, u32]) (reaches_after (by decide +kernel)) (by decide +kernel) ⟨0, 1, -2⟩
  have h3 : (S3LRU.algo.evict (after S3LRU.algo (S3LRU_new 10 4 9 false 1) [.get ⟨1, 1, -2⟩, .get ⟨1, 1, -2⟩]) ⟨0, 1, -2⟩).map S3LRU_cached = .ok [(1, 1)] := rfl
  rw [h1] at h3
  have h4 : S3LRU_cached s' = [(1, 1)] := by simpa [Except.map] using h3
  have := h2.length_eq
  rw [List.length_cons, h4] at this
  revert this
  decide +kernel

/-- C07 fails for the answer: removing an object that is only in the ghost cache answers `true`. -/
theorem C07_removeExact_fails_S3LRU : ¬ RemoveExact S3LRU.algo S3LRU_cached (S3LRU_new 10 4 9 true 1) (Calls noUpdate (OneSize (fun _ => 1) noUpdate)) := by
  intro h
  obtain ⟨s', h1, _⟩ := h [.get ⟨1, 1, -2⟩, .evict ⟨0, 1, -2⟩] [false, true] _ (by simp [Calls, OneSize, u32]) (reaches_after (by decide +kernel)) 1
  have h2 : (S3LRU.algo.remove (after S3LRU.algo (S3LRU_new 10 4 9 true 1) [.get ⟨1, 1, -2⟩, .evict ⟨0, 1, -2⟩]) 1).map (fun p => p.1) = .ok true := rfl
  rw [h1] at h2
  revert h2
  exact fun h2 => absurd h2 (by simp only [Except.map]; decide +kernel)

/-- C04 and C07 fail when the client inserts: object 1 is remembered in the ghost cache, inserted again (`insert` does not look there) and promoted;
`remove 1` answers `true` and object 1 is still cached. -/
theorem C07_removeEffect_fails_S3LRU : ∃ ops out s s', (∀ op ∈ ops, Calls noUpdate (OneSize (fun _ => 1) noUpdate) op) ∧
    Reaches S3LRU.algo (S3LRU_new 10 4 20 true 1) ops out s ∧ (1, 1) ∈ S3LRU_cached s ∧ 1 ∈ S3LRU_ghost s ∧
    S3LRU.algo.remove s 1 = .ok (true, s') ∧ (1, 1) ∈ S3LRU_cached s' :=
  ⟨[.get ⟨1, 1, -2⟩, .evict ⟨0, 1, -2⟩, .insert ⟨1, 1, -2⟩, .get ⟨1, 1, -2⟩], [false, true, true, true],
    after S3LRU.algo (S3LRU_new 10 4 20 true 1) [.get ⟨1, 1, -2⟩, .evict ⟨0, 1, -2⟩, .insert ⟨1, 1, -2⟩, .get ⟨1, 1, -2⟩], _,
    by simp [Calls, OneSize, u32], reaches_after (by decide +kernel), by decide +kernel, by decide +kernel, res_ok (S3LRU_new 10 4 20 true 1) (by decide +kernel), by decide +kernel⟩

/-- C03 and C04 fail for `find` with update: a hit may change the cached size of the object. -/
theorem C04_addsOnlyRequested_fails_S3LRU : ∃ s s', Reaches S3LRU.algo (S3LRU_new 10 4 9 true 1) [.get ⟨1, 1, -2⟩] [false] s ∧
    S3LRU.algo.find s ⟨1, 11, -2⟩ true = .ok (true, s') ∧ S3LRU_cached s = [(1, 1)] ∧ S3LRU_cached s' = [(1, 11)] :=
  ⟨_, _, reaches_after (by decide +kernel), res_ok (S3LRU_new 10 4 9 true 1) (by decide +kernel), by decide +kernel, by decide +kernel⟩

end Verif.Props
