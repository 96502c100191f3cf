import Verif.Proof.SFIFO
import Verif.Props.SLRU
/-!
# Properties of SFIFO (libCacheSim/cache/eviction/fifo/SFIFO.c)

The statements are those of `Verif/Spec/Cache.lean` and `Verif/Spec/Segments.lean`.  They hold for every cache size `cs`, every number `n ≥ 1` of
segments of `cs / n` bytes, every admission policy and every sequence of client calls without `remove`, for the requests described by
`Segmented.Small`; object metadata is not considered.  The theorems named `_fails` show what goes wrong outside these bounds.
-/

namespace Verif.Props
open Verif Verif.Spec Verif.Spec.Segmented
set_option linter.unusedVariables false
set_option maxRecDepth 20000

/-- what SFIFO has cached: the objects in its hash table -/
abbrev SFIFO_cached (s : SFIFO.State) : Contents := s.base.cached

/-- ids and sizes of the objects on the list of each segment, latest first -/
abbrev SFIFO_segs (s : SFIFO.State) : Segs := SFIFO.segs s

/-- a demo run on two segments of 6 bytes: insertion into both segments, a promotion with a demotion, a hit in the top segment, evictions,
a client insertion, a client eviction -/
def SFIFO_ops : List Op := [.get ⟨1, 3, -2⟩, .get ⟨2, 3, -2⟩, .get ⟨3, 3, -2⟩, .get ⟨4, 2, -2⟩, .get ⟨1, 3, -2⟩, .find ⟨2, 3, -2⟩ true, .find ⟨2, 3, -2⟩ false,
  .get ⟨5, 6, -2⟩, .get ⟨2, 3, -2⟩, .insert ⟨6, 1, -2⟩, .evict ⟨7, 1, -2⟩, .get ⟨8, 2, -2⟩]

def SFIFO_demo0 : SFIFO.State := SFIFO.init 12 0 .none 2
def SFIFO_demo : SFIFO.State := after SFIFO.algo SFIFO_demo0 SFIFO_ops

theorem SFIFO_demo_reached : Reaches SFIFO.algo SFIFO_demo0 SFIFO_ops [false, false, false, false, true, true, true, false, true, false, true, false] SFIFO_demo ∧
    SFIFO_segs SFIFO_demo 0 = [(8, 2)] ∧ SFIFO_segs SFIFO_demo 1 = [(2, 3), (1, 3)] := ⟨reaches_after (by decide +kernel), by decide +kernel, by decide +kernel⟩

/-- the calls of the demo run are among those considered -/
example : ∀ op ∈ SFIFO_ops, Calls noRemove (Small (12 / 2) noRemove) op := by
  intro op hop
  simp only [SFIFO_ops, List.mem_cons, List.not_mem_nil, or_false] at hop
  rcases hop with rfl | rfl | rfl | rfl | rfl | rfl | rfl | rfl | rfl | rfl | rfl | rfl <;> simp [Calls, Small]

theorem SFIFO_top (cs n : Nat) : n = 1 → cs ≤ cs / n := by
  intro h; rw [h]; simp

theorem C01_capacity_SFIFO_partial (cs n : Nat) (adm : Adm) (p : Perms) (hn : 1 ≤ n) (hp : p.rem = false) :
    Capacity SFIFO.algo (SFIFO.init cs 0 adm n) (Calls p (Small (cs / n) p)) cs :=
  (SFIFO.contract hn (SFIFO_top cs n) hp).capacity (SFIFO.inv_init cs n adm)

example : SFIFO.algo.occ SFIFO_demo = 8 := by decide +kernel

theorem C02_accounting_SFIFO_partial (cs n : Nat) (adm : Adm) (p : Perms) (hn : 1 ≤ n) (hp : p.rem = false) :
    Accounting SFIFO.algo SFIFO_cached (SFIFO.init cs 0 adm n) (Calls p (Small (cs / n) p)) 0 :=
  (SFIFO.contract hn (SFIFO_top cs n) hp).accounting (SFIFO.inv_init cs n adm)

theorem C03_hitIffCached_SFIFO_partial (cs n : Nat) (adm : Adm) (p : Perms) (hn : 1 ≤ n) (hp : p.rem = false) :
    HitIffCached SFIFO.algo SFIFO_cached (SFIFO.init cs 0 adm n) (Calls p (Small (cs / n) p)) :=
  (SFIFO.contract hn (SFIFO_top cs n) hp).hitIffCached (SFIFO.inv_init cs n adm)

theorem C04_noPhantom_SFIFO_partial (cs n : Nat) (adm : Adm) (p : Perms) (hn : 1 ≤ n) (hp : p.rem = false) :
    NoPhantom SFIFO.algo SFIFO_cached (SFIFO.init cs 0 adm n) (Calls p (Small (cs / n) p)) := by
  refine (SFIFO.contract hn (SFIFO_top cs n) hp).noPhantom (SFIFO.inv_init cs n adm) rfl ?_
  intro h
  rw [hp] at h; cases h

theorem C04_addsOnlyRequested_SFIFO_partial (cs n : Nat) (adm : Adm) (p : Perms) (hn : 1 ≤ n) (hp : p.rem = false) :
    AddsOnlyRequested SFIFO.algo SFIFO_cached (SFIFO.init cs 0 adm n) (Calls p (Small (cs / n) p)) :=
  (SFIFO.contract hn (SFIFO_top cs n) hp).addsOnlyRequested (SFIFO.inv_init cs n adm)

/-- C05: the admission policy accepts the object, and it is not larger than the cache or segment 0. -/
theorem C05_admittedMissCached_SFIFO_partial (cs n : Nat) (adm : Adm) (p : Perms) (hn : 1 ≤ n) (hp : p.rem = false) :
    AdmittedMissCached SFIFO.algo SFIFO_cached (fun s r => admitsBase s.base r && decide (r.size ≤ cs / n)) (SFIFO.init cs 0 adm n)
      (Calls p (Small (cs / n) p)) := by
  intro ops out s ho hr r hok hnc ha
  have hi := (SFIFO.contract hn (SFIFO_top cs n) hp).reach (SFIFO.inv_init cs n adm) ho hr
  obtain ⟨s', vs, a1, k, kept, h1, _, _, _, _, _, h5, _⟩ := (SFIFO.get_miss hn hi hok hnc).2 ha
  have hle : r.size ≤ cs / n := by simp only [Bool.and_eq_true, decide_eq_true_eq] at ha; exact ha.2
  refine ⟨s', h1, ?_⟩
  show _ ∈ s'.base.cached
  rw [h5, Nat.mod_eq_of_lt (hok.1 hle)]
  exact List.mem_cons_self

example : 4 ∉ (SFIFO_cached SFIFO_demo).ids ∧ (admitsBase SFIFO_demo.base ⟨4, 5, -2⟩ && decide (5 ≤ 12 / 2)) = true := by decide +kernel

/-- What is proved of C06: a miss evicts a list of victims, keeps everything else, and with the last victim put back the new object would not have
fitted. -/
theorem C06_evictOnDemand_SFIFO_partial (cs n : Nat) (adm : Adm) (p : Perms) (hn : 1 ≤ n) (hp : p.rem = false) (ops : List Op)
    (out : List Bool) (s : SFIFO.State) (ho : ∀ op ∈ ops, Calls p (Small (cs / n) p) op) (hr : Reaches SFIFO.algo (SFIFO.init cs 0 adm n) ops out s)
    (r : Req) (s' : SFIFO.State) (hok : Small (cs / n) p r) (hg : SFIFO.algo.get s r = .ok (false, s')) :
    ∃ victims kept, (SFIFO_cached s).Perm (victims ++ kept) ∧ ((SFIFO_cached s').Perm kept ∨ (SFIFO_cached s').Perm ((r.id, r.size % u32) :: kept)) ∧
      ∀ vs v, victims = vs ++ [v] → bytes 0 (v :: kept) + r.size > cs := by
  have C := SFIFO.contract (cs := cs) (lim := fun _ => cs / n) hn (SFIFO_top cs n) hp
  have hi := C.reach (SFIFO.inv_init cs n adm) ho hr
  have hnc : r.id ∉ (SFIFO_cached s).ids := by
    obtain ⟨s2, h2, _⟩ := C.get r hok hi
    rw [hg] at h2
    injection h2 with h2
    injection h2 with h2
    exact of_decide_eq_false h2.symm
  cases ha : (admitsBase s.base r && decide (r.size ≤ cs / n)) with
  | false =>
    rw [(SFIFO.get_miss hn hi hok hnc).1 ha] at hg
    injection hg with hg
    injection hg with _ hg
    refine ⟨[], SFIFO_cached s, List.Perm.refl _, .inl ?_, by simp⟩
    rw [← hg]; exact List.Perm.refl _
  | true =>
    obtain ⟨s2, vs, a1, k, kept, h1, _, _, _, _, h4, h5, h6⟩ := (SFIFO.get_miss hn hi hok hnc).2 ha
    rw [h1] at hg
    injection hg with hg
    injection hg with _ hg
    have hle : r.size ≤ cs / n := by simp only [Bool.and_eq_true, decide_eq_true_eq] at ha; exact ha.2
    refine ⟨vs, kept, h4, .inr ?_, ?_⟩
    · rw [← hg, Nat.mod_eq_of_lt (hok.1 hle), ← h5]
    · intro us v huv
      rw [bytes_eq_charge]; exact h6 us v huv

/-- C06 fails for hits: 9 of 10 bytes are in use, object 3 is hit, and object 1 is evicted. -/
theorem C06_evictOnDemand_fails_SFIFO :
    ¬ EvictOnDemand SFIFO.algo SFIFO_cached (SFIFO.init 10 0 .none 2) (Calls getsOnly (Small (10 / 2) getsOnly)) 10 0 := by
  intro h
  have := (h [.get ⟨1, 3, -2⟩, .get ⟨2, 3, -2⟩, .get ⟨3, 3, -2⟩] _ _
    (by simp [Calls, Small]) (reaches_after (out := [false, false, false]) (by decide +kernel)) ⟨3, 3, -2⟩ true _
    (by simp [Calls, Small]) (get_after (by decide +kernel))).1 rfl
  have hl := this.length_eq
  revert hl
  decide +kernel

/-- C07 for the first `remove` of a run. -/
theorem C07_removeExact_SFIFO_partial (cs n : Nat) (adm : Adm) (p : Perms) (hn : 1 ≤ n) (hp : p.rem = false) :
    RemoveExact SFIFO.algo SFIFO_cached (SFIFO.init cs 0 adm n) (Calls p (Small (cs / n) p)) := by
  intro ops out s ho hr id
  exact SFIFO.remove_spec ((SFIFO.contract hn (SFIFO_top cs n) hp).reach (SFIFO.inv_init cs n adm) ho hr) id

/-- C08: everything but the request counter and the admission policy's state is unchanged. -/
theorem C08_rejectQuiet_SFIFO_partial (cs n : Nat) (adm : Adm) (p : Perms) (hn : 1 ≤ n) (hp : p.rem = false) :
    RejectQuiet SFIFO.algo SFIFO_cached (fun s r => admitsBase s.base r && decide (r.size ≤ cs / n))
      (fun s => (s.base.tbl, s.base.occ, s.base.nObj, s.q, s.bytes, s.objs)) (SFIFO.init cs 0 adm n) (Calls p (Small (cs / n) p)) := by
  intro ops out s ho hr r hok hnc ha
  exact ⟨_, (SFIFO.get_miss hn ((SFIFO.contract hn (SFIFO_top cs n) hp).reach (SFIFO.inv_init cs n adm) ho hr) hok hnc).1 ha, rfl⟩

example : 4 ∉ (SFIFO_cached SFIFO_demo).ids ∧ (admitsBase SFIFO_demo.base ⟨4, 7, -2⟩ && decide (7 ≤ 12 / 2)) = false := by decide +kernel

theorem C09_safe_SFIFO_partial (cs n : Nat) (adm : Adm) (p : Perms) (hn : 1 ≤ n) (hp : p.rem = false) :
    Safe SFIFO.algo (SFIFO.init cs 0 adm n) (Calls p (Small (cs / n) p)) :=
  (SFIFO.contract hn (SFIFO_top cs n) hp).safe (SFIFO.inv_init cs n adm)

/-- C09: `evict` on a cache that is not empty evicts exactly one object. -/
theorem C09_evictsOne_SFIFO_partial (cs n : Nat) (adm : Adm) (p : Perms) (hn : 1 ≤ n) (hp : p.rem = false) (ops : List Op) (out : List Bool) (s : SFIFO.State)
    (ho : ∀ op ∈ ops, Calls p (Small (cs / n) p) op) (hr : Reaches SFIFO.algo (SFIFO.init cs 0 adm n) ops out s) (hne : SFIFO_cached s ≠ []) (r : Req) :
    ∃ s' x, SFIFO.algo.evict s r = .ok s' ∧ (SFIFO_cached s).Perm (x :: SFIFO_cached s') := by
  obtain ⟨s', x, h1, _, _, h3, _⟩ := SFIFO.evict_spec ((SFIFO.contract hn (SFIFO_top cs n) hp).reach (SFIFO.inv_init cs n adm) ho hr) hne
  exact ⟨s', x, h1, h3⟩

/-- C09 fails after `remove`: the byte counter of the segment is not reduced, and a later hit makes the cache evict from an empty cache. -/
theorem C09_safe_fails_SFIFO_remove : faultOf SFIFO.algo (SFIFO.init 10 0 .none 2)
    [.get ⟨1, 5, -2⟩, .remove 1, .get ⟨2, 5, -2⟩, .get ⟨3, 5, -2⟩, .remove 3, .get ⟨4, 5, -2⟩, .get ⟨4, 5, -2⟩] = some .outOfBounds := by decide +kernel

/-- C09 fails for a client insertion of an object larger than a segment: the next hit evicts the object while `find` still uses it. -/
theorem C09_safe_fails_SFIFO_insert : faultOf SFIFO.algo (SFIFO.init 10 0 .none 2) [.insert ⟨1, 6, -2⟩, .get ⟨1, 6, -2⟩] = some .useAfterFree := by decide +kernel

/-- C09 fails for objects of 4 GiB and more: the stored size is truncated, the segment's byte counter is not. -/
theorem C09_safe_fails_SFIFO_large : faultOf SFIFO.algo (SFIFO.init (2 ^ 33) 0 .none 2)
    [.get ⟨1, 2 ^ 32, -2⟩, .get ⟨3, 2 ^ 32, -2⟩, .get ⟨2, 1, -2⟩, .get ⟨2, 1, -2⟩, .get ⟨4, 1, -2⟩, .get ⟨4, 1, -2⟩, .evict ⟨5, 1, -2⟩] =
    some .useAfterFree := by decide +kernel

/-- C10 if no cached object is empty. -/
theorem C10_toEvictPredicts_SFIFO_partial (cs n : Nat) (adm : Adm) (p : Perms) (hn : 1 ≤ n) (hp : p.rem = false) (ops : List Op) (out : List Bool)
    (s : SFIFO.State) (ho : ∀ op ∈ ops, Calls p (Small (cs / n) p) op) (hr : Reaches SFIFO.algo (SFIFO.init cs 0 adm n) ops out s)
    (hne : SFIFO_cached s ≠ []) (hpos : ∀ x ∈ SFIFO_cached s, 0 < x.2) (r : Req) :
    ∃ id sz s', SFIFO.toEvict s = some id ∧ SFIFO.algo.evict s r = .ok s' ∧ (SFIFO_cached s).Perm ((id, sz) :: SFIFO_cached s') := by
  obtain ⟨s', x, h1, _, _, h3, h4⟩ := SFIFO.evict_spec ((SFIFO.contract hn (SFIFO_top cs n) hp).reach (SFIFO.inv_init cs n adm) ho hr) hne
  exact ⟨x.1, x.2, s', h4 (hpos x (h3.symm.subset List.mem_cons_self)), h1, h3⟩

example : SFIFO.toEvict SFIFO_demo = some 8 ∧ (∀ x ∈ SFIFO_cached SFIFO_demo, 0 < x.2) := by decide +kernel

/-- C10 fails for a cache that holds only an empty object: `to_evict` returns NULL, `evict` evicts it. -/
theorem C10_toEvict_fails_SFIFO : SFIFO.toEvict (after SFIFO.algo (SFIFO.init 10 0 .none 2) [.get ⟨1, 0, -2⟩]) = none ∧
    answers SFIFO.algo (SFIFO.init 10 0 .none 2) [.get ⟨1, 0, -2⟩, .find ⟨1, 0, -2⟩ false, .evict ⟨2, 1, -2⟩, .find ⟨1, 0, -2⟩ false] =
      some [false, true, true, false] := by
  constructor <;> decide +kernel

/-! ## C56 -/

section
variable (cs n : Nat) (adm : Adm) (p : Perms) (hn : 1 ≤ n) (hp : p.rem = false) (ops : List Op) (out : List Bool) (s : SFIFO.State)
  (ho : ∀ op ∈ ops, Calls p (Small (cs / n) p) op) (hr : Reaches SFIFO.algo (SFIFO.init cs 0 adm n) ops out s)
include hn hp ho hr

/-- Every cached object is in exactly one segment, and segments hold only cached objects. -/
theorem C56_oneSegment_SFIFO_partial : (∀ x, x ∈ SFIFO_cached s ↔ ∃ k, k < n ∧ x ∈ SFIFO_segs s k) ∧
    (∀ j k x y, x ∈ SFIFO_segs s j → y ∈ SFIFO_segs s k → x.1 = y.1 → j = k ∧ x = y) ∧ ∀ k, (SFIFO_segs s k).ids.Nodup := by
  have hi := (SFIFO.contract hn (SFIFO_top cs n) hp).reach (SFIFO.inv_init cs n adm) ho hr
  refine ⟨fun x => ?_, ?_, hi.abs.nd⟩
  · rw [hi.abs.mem_cached]
    exact ⟨fun ⟨k, hk⟩ => ⟨k, hi.abs.lt hk, hk⟩, fun ⟨k, _, hk⟩ => ⟨k, hk⟩⟩
  · intro j k x y hx hy e
    obtain ⟨o, h1, h2, h3⟩ := hi.abs.lookup hx
    obtain ⟨o', k1, k2, k3⟩ := hi.abs.lookup hy
    rw [← e, h1] at k1
    cases k1
    exact ⟨by rw [← h3, ← k3], Prod.ext e (by rw [← h2, ← k2])⟩

/-- Every segment but the lowest one is within its limit. -/
theorem C56_limits_SFIFO_partial (k : Nat) (hk : 1 ≤ k) : bytes 0 (SFIFO_segs s k) ≤ cs / n := by
  rw [bytes_eq_charge]
  exact ((SFIFO.contract hn (SFIFO_top cs n) hp).reach (SFIFO.inv_init cs n adm) ho hr).within k hk

/-- A hit: the segments afterwards are the specified ones. -/
theorem C56_hit_SFIFO_partial (k : Nat) (x : ObjId × Nat) (hx : x ∈ SFIFO_segs s k) (r : Req) (he : r.id = x.1) :
    ∃ s', SFIFO.algo.get s r = .ok (true, s') ∧ SFIFO_segs s' = fifoHit (fun _ => cs / n) n (SFIFO_segs s) k x := by
  have hi := (SFIFO.contract hn (SFIFO_top cs n) hp).reach (SFIFO.inv_init cs n adm) ho hr
  obtain ⟨s', h1, _, h3, _⟩ := SFIFO.find_hit (SFIFO_top cs n) (hi.frame (s.base.nReq + 1) s.base.adm) hx r he
  exact ⟨s', get_hit h1, h3⟩

/-- In particular, an object that fits into the segment above becomes its most recent object. -/
theorem C56_promoted_SFIFO_partial (k : Nat) (x : ObjId × Nat) (hx : x ∈ SFIFO_segs s k) (hk : k + 1 < n) (hfit : x.2 ≤ cs / n) (r : Req) (he : r.id = x.1) :
    ∃ s', SFIFO.algo.get s r = .ok (true, s') ∧ (SFIFO_segs s' (k + 1)).head? = some x := by
  have hi := (SFIFO.contract hn (SFIFO_top cs n) hp).reach (SFIFO.inv_init cs n adm) ho hr
  obtain ⟨s', h1, _, h3, _⟩ := SFIFO.find_hit (SFIFO_top cs n) (hi.frame (s.base.nReq + 1) s.base.adm) hx r he
  refine ⟨s', get_hit h1, ?_⟩
  rw [SFIFO_segs, h3, fifoHit, if_neg (by omega), settle_self, put_self, keep, if_pos hfit]; rfl

/-- A miss that is admitted: evictions from the lowest segment that is not empty, then the object becomes the most recent one of the lowest segment with
room for it (of segment 0 if there is none). -/
theorem C56_miss_SFIFO_partial (r : Req) (hok : Small (cs / n) p r) (hnc : r.id ∉ (SFIFO_cached s).ids)
    (ha : (admitsBase s.base r && decide (r.size ≤ cs / n)) = true) :
    ∃ s' victims a k, SFIFO.algo.get s r = .ok (false, s') ∧ EvictsOldestAll n (SFIFO_segs s) victims a ∧ Target (fun _ => cs / n) n a r.size k ∧
      SFIFO_segs s' = put a k ((r.id, r.size) :: a k) := by
  obtain ⟨s', vs, a1, k, _, h1, _, h2, h3, h4, _⟩ :=
    (SFIFO.get_miss hn ((SFIFO.contract hn (SFIFO_top cs n) hp).reach (SFIFO.inv_init cs n adm) ho hr) hok hnc).2 ha
  exact ⟨s', vs, a1, k, h1, h2, h3, h4⟩

/-- The victim of `evict` is the oldest object of the lowest segment that is not empty. -/
theorem C56_victim_SFIFO_partial (hb : SFIFO_cached s ≠ []) (r : Req) :
    ∃ s' x, SFIFO.algo.evict s r = .ok s' ∧ EvictsOldest n (SFIFO_segs s) x (SFIFO_segs s') ∧ (SFIFO_cached s).Perm (x :: SFIFO_cached s') := by
  obtain ⟨s', x, h1, _, h2, h3, _⟩ := SFIFO.evict_spec ((SFIFO.contract hn (SFIFO_top cs n) hp).reach (SFIFO.inv_init cs n adm) ho hr) hb
  exact ⟨s', x, h1, h2, h3⟩

end

/-- a hit in the lower segment of the demo state: object 8 moves up, object 1 moves down -/
example : (match SFIFO.algo.get SFIFO_demo ⟨8, 2, -2⟩ with
    | .ok p => some (p.1, SFIFO_segs p.2 0, SFIFO_segs p.2 1)
    | .error _ => none) = some (true, [(1, 3)], [(8, 2), (2, 3)]) := by decide +kernel

/-- a hit in the top segment changes nothing -/
example : (match SFIFO.algo.get SFIFO_demo ⟨1, 3, -2⟩ with
    | .ok p => some (p.1, SFIFO_segs p.2 0, SFIFO_segs p.2 1)
    | .error _ => none) = some (true, [(8, 2)], [(2, 3), (1, 3)]) := by decide +kernel

/-- C56 fails for the lowest segment: when no segment has room but the cache has, the object goes to segment 0, here 6 bytes with a limit of 5. -/
theorem C56_limits_fails_SFIFO : ∃ s, Reaches SFIFO.algo (SFIFO.init 10 0 .none 2) [.get ⟨1, 3, -2⟩, .get ⟨2, 3, -2⟩, .get ⟨3, 3, -2⟩]
    [false, false, false] s ∧ bytes 0 (SFIFO_segs s 0) = 6 ∧ s.per = 5 :=
  ⟨after SFIFO.algo (SFIFO.init 10 0 .none 2) [.get ⟨1, 3, -2⟩, .get ⟨2, 3, -2⟩, .get ⟨3, 3, -2⟩], reaches_after (by decide +kernel), by decide +kernel, by decide +kernel⟩

/-- C56 fails when object metadata is considered: the byte counters drift, and a hit leaves its object in the lower segment although the upper
one is empty. -/
theorem C56_promoted_fails_SFIFO_metadata : ∃ s, Reaches SFIFO.algo (SFIFO.init 40 16 .none 2)
    [.get ⟨1, 3, -2⟩, .get ⟨1, 3, -2⟩, .get ⟨2, 3, -2⟩, .get ⟨2, 3, -2⟩] [false, true, false, true] s ∧
    SFIFO_segs s 0 = [(2, 3), (1, 3)] ∧ SFIFO_segs s 1 = [] ∧ s.per = 20 :=
  ⟨after SFIFO.algo (SFIFO.init 40 16 .none 2) [.get ⟨1, 3, -2⟩, .get ⟨1, 3, -2⟩, .get ⟨2, 3, -2⟩, .get ⟨2, 3, -2⟩], reaches_after (by decide +kernel),
    by decide +kernel, by decide +kernel, by decide +kernel⟩

end Verif.Props
