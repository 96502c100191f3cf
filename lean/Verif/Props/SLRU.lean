import Verif.Proof.SLRU
import Verif.Props.Demo
/-!
# Properties of SLRU (libCacheSim/cache/eviction/SLRU.c)

The statements are those of `Verif/Spec/Cache.lean` and `Verif/Spec/Segments.lean`.  They hold for every cache size `cs`, every number `n ≥ 1` of
segments, all segment limits `lim`, every admission policy and every sequence of client calls without `remove`, for the requests described by
`Segmented.Requests`; object metadata is not considered.  The theorems named `_fails` show what goes wrong outside these bounds.
-/

namespace Verif.Props
open Verif Verif.Spec Verif.Spec.Segmented
set_option linter.unusedVariables false
set_option maxRecDepth 20000

/-- what SLRU has cached: the objects in its hash table -/
abbrev SLRU_cached (s : SLRU.State) : Contents := s.base.cached

/-- ids and sizes of the objects on the list of each segment, most recent first -/
abbrev SLRU_segs (s : SLRU.State) : Segs := SLRU.segs s

/-- no client `remove` -/
abbrev noRemove : Perms := { rem := false }
/-- `get` and `find` only -/
abbrev getsOnly : Perms := { rem := false, ev := false, ins := false }

/-- a demo run on two segments of 6 bytes: insertion into both segments, a promotion with a demotion, a hit in the top segment, evictions,
a client insertion, a client eviction -/
def SLRU_ops : List Op := [.get ⟨1, 3, -2⟩, .get ⟨2, 3, -2⟩, .get ⟨3, 3, -2⟩, .get ⟨4, 2, -2⟩, .get ⟨1, 3, -2⟩, .find ⟨2, 3, -2⟩ true, .find ⟨2, 3, -2⟩ false,
  .get ⟨5, 6, -2⟩, .get ⟨2, 3, -2⟩, .insert ⟨6, 1, -2⟩, .evict ⟨7, 1, -2⟩, .get ⟨8, 2, -2⟩]

def SLRU_demo0 : SLRU.State := SLRU.init 12 0 .none 2 (SLRU.evenLimits 12 2)
def SLRU_demo : SLRU.State := after SLRU.algo SLRU_demo0 SLRU_ops

theorem SLRU_demo_reached : Reaches SLRU.algo SLRU_demo0 SLRU_ops [false, false, false, false, true, true, true, false, true, false, true, false] SLRU_demo ∧
    SLRU_segs SLRU_demo 0 = [(8, 2)] ∧ SLRU_segs SLRU_demo 1 = [(2, 3), (1, 3)] := ⟨reaches_after (by decide +kernel), by decide +kernel, by decide +kernel⟩

/-- the calls of the demo run are among those considered -/
example : ∀ op ∈ SLRU_ops, Calls noRemove (Requests (SLRU.evenLimits 12 2) noRemove) op := by
  intro op hop
  simp only [SLRU_ops, List.mem_cons, List.not_mem_nil, or_false] at hop
  rcases hop with rfl | rfl | rfl | rfl | rfl | rfl | rfl | rfl | rfl | rfl | rfl | rfl <;> simp [Calls, Requests, SLRU.evenLimits]

theorem C01_capacity_SLRU_partial (cs n : Nat) (lim : Nat → Nat) (adm : Adm) (p : Perms) (hn : 1 ≤ n) (hp : p.rem = false) :
    Capacity SLRU.algo (SLRU.init cs 0 adm n lim) (Calls p (Requests lim p)) cs :=
  (SLRU.contract hn hp).capacity (SLRU.inv_init cs n lim p adm)

example : SLRU.algo.occ SLRU_demo = 8 := by decide +kernel

theorem C02_accounting_SLRU_partial (cs n : Nat) (lim : Nat → Nat) (adm : Adm) (p : Perms) (hn : 1 ≤ n) (hp : p.rem = false) :
    Accounting SLRU.algo SLRU_cached (SLRU.init cs 0 adm n lim) (Calls p (Requests lim p)) 0 :=
  (SLRU.contract hn hp).accounting (SLRU.inv_init cs n lim p adm)

theorem C03_hitIffCached_SLRU_partial (cs n : Nat) (lim : Nat → Nat) (adm : Adm) (p : Perms) (hn : 1 ≤ n) (hp : p.rem = false) :
    HitIffCached SLRU.algo SLRU_cached (SLRU.init cs 0 adm n lim) (Calls p (Requests lim p)) :=
  (SLRU.contract hn hp).hitIffCached (SLRU.inv_init cs n lim p adm)

theorem C04_noPhantom_SLRU_partial (cs n : Nat) (lim : Nat → Nat) (adm : Adm) (p : Perms) (hn : 1 ≤ n) (hp : p.rem = false) :
    NoPhantom SLRU.algo SLRU_cached (SLRU.init cs 0 adm n lim) (Calls p (Requests lim p)) := by
  refine (SLRU.contract hn hp).noPhantom (SLRU.inv_init cs n lim p adm) rfl ?_
  intro h
  rw [hp] at h; cases h

theorem C04_addsOnlyRequested_SLRU_partial (cs n : Nat) (lim : Nat → Nat) (adm : Adm) (p : Perms) (hn : 1 ≤ n) (hp : p.rem = false) :
    AddsOnlyRequested SLRU.algo SLRU_cached (SLRU.init cs 0 adm n lim) (Calls p (Requests lim p)) :=
  (SLRU.contract hn hp).addsOnlyRequested (SLRU.inv_init cs n lim p adm)

/-- C05: the admission policy accepts the object, and it is not larger than the cache or segment 0. -/
theorem C05_admittedMissCached_SLRU_partial (cs n : Nat) (lim : Nat → Nat) (adm : Adm) (p : Perms) (hn : 1 ≤ n) (hp : p.rem = false) :
    AdmittedMissCached SLRU.algo SLRU_cached (fun s r => admitsBase s.base r && decide (r.size ≤ lim 0)) (SLRU.init cs 0 adm n lim)
      (Calls p (Requests lim p)) := by
  intro ops out s ho hr r hok hnc ha
  have hi := (SLRU.contract hn hp).reach (SLRU.inv_init cs n lim p adm) ho hr
  obtain ⟨s', vs, a1, k, kept, h1, _, _, _, _, _, h5, _⟩ := (SLRU.get_miss hn hi hok hnc).2 ha
  have hle : r.size ≤ lim 0 := by simp only [Bool.and_eq_true, decide_eq_true_eq] at ha; exact ha.2
  refine ⟨s', h1, ?_⟩
  show _ ∈ s'.base.cached
  rw [h5, Nat.mod_eq_of_lt (hok.1 hle).1]
  exact List.mem_cons_self

example : 4 ∉ (SLRU_cached SLRU_demo).ids ∧ (admitsBase SLRU_demo.base ⟨4, 5, -2⟩ && decide (5 ≤ SLRU.evenLimits 12 2 0)) = true := by decide +kernel

/-- What is proved of C06: a miss evicts a list of victims, keeps everything else, and with the last victim put back the new object would not have
fitted. -/
theorem C06_evictOnDemand_SLRU_partial (cs n : Nat) (lim : Nat → Nat) (adm : Adm) (p : Perms) (hn : 1 ≤ n) (hp : p.rem = false) (ops : List Op)
    (out : List Bool) (s : SLRU.State) (ho : ∀ op ∈ ops, Calls p (Requests lim p) op) (hr : Reaches SLRU.algo (SLRU.init cs 0 adm n lim) ops out s)
    (r : Req) (s' : SLRU.State) (hok : Requests lim p r) (hg : SLRU.algo.get s r = .ok (false, s')) :
    ∃ victims kept, (SLRU_cached s).Perm (victims ++ kept) ∧ ((SLRU_cached s').Perm kept ∨ (SLRU_cached s').Perm ((r.id, r.size % u32) :: kept)) ∧
      ∀ vs v, victims = vs ++ [v] → bytes 0 (v :: kept) + r.size > cs := by
  have C := SLRU.contract (cs := cs) (lim := lim) hn hp
  have hi := C.reach (SLRU.inv_init cs n lim p adm) ho hr
  have hnc : r.id ∉ (SLRU_cached s).ids := by
    obtain ⟨s2, h2, _⟩ := C.get r hok hi
    rw [hg] at h2
    injection h2 with h2
    injection h2 with h2
    exact of_decide_eq_false h2.symm
  cases ha : (admitsBase s.base r && decide (r.size ≤ lim 0)) with
  | false =>
    rw [(SLRU.get_miss hn hi hok hnc).1 ha] at hg
    injection hg with hg
    injection hg with _ hg
    refine ⟨[], SLRU_cached s, List.Perm.refl _, .inl ?_, by simp⟩
    rw [← hg]; exact List.Perm.refl _
  | true =>
    obtain ⟨s2, vs, a1, k, kept, h1, _, _, _, _, h4, h5, h6⟩ := (SLRU.get_miss hn hi hok hnc).2 ha
    rw [h1] at hg
    injection hg with hg
    injection hg with _ hg
    have hle : r.size ≤ lim 0 := by simp only [Bool.and_eq_true, decide_eq_true_eq] at ha; exact ha.2
    refine ⟨vs, kept, h4, .inr ?_, ?_⟩
    · rw [← hg, Nat.mod_eq_of_lt (hok.1 hle).1, ← h5]
    · intro us v huv
      rw [bytes_eq_charge]; exact h6 us v huv

/-- C06 fails for hits: 9 of 10 bytes are in use, object 3 is hit, and object 1 is evicted. -/
theorem C06_evictOnDemand_fails_SLRU :
    ¬ EvictOnDemand SLRU.algo SLRU_cached (SLRU.init 10 0 .none 2 (SLRU.evenLimits 10 2)) (Calls getsOnly (Requests (SLRU.evenLimits 10 2) getsOnly)) 10 0 := by
  intro h
  have := (h [.get ⟨1, 3, -2⟩, .get ⟨2, 3, -2⟩, .get ⟨3, 3, -2⟩] _ _
    (by simp [Calls, Requests, SLRU.evenLimits]) (reaches_after (out := [false, false, false]) (by decide +kernel)) ⟨3, 3, -2⟩ true _
    (by simp [Calls, Requests, SLRU.evenLimits]) (get_after (by decide +kernel))).1 rfl
  have hl := this.length_eq
  revert hl
  decide +kernel

/-- C07 for the first `remove` of a run. -/
theorem C07_removeExact_SLRU_partial (cs n : Nat) (lim : Nat → Nat) (adm : Adm) (p : Perms) (hn : 1 ≤ n) (hp : p.rem = false) :
    RemoveExact SLRU.algo SLRU_cached (SLRU.init cs 0 adm n lim) (Calls p (Requests lim p)) := by
  intro ops out s ho hr id
  exact SLRU.remove_spec ((SLRU.contract hn hp).reach (SLRU.inv_init cs n lim p adm) ho hr) id

/-- C08: everything but the request counter and the admission policy's state is unchanged. -/
theorem C08_rejectQuiet_SLRU_partial (cs n : Nat) (lim : Nat → Nat) (adm : Adm) (p : Perms) (hn : 1 ≤ n) (hp : p.rem = false) :
    RejectQuiet SLRU.algo SLRU_cached (fun s r => admitsBase s.base r && decide (r.size ≤ lim 0))
      (fun s => (s.base.tbl, s.base.occ, s.base.nObj, s.q, s.bytes, s.objs)) (SLRU.init cs 0 adm n lim) (Calls p (Requests lim p)) := by
  intro ops out s ho hr r hok hnc ha
  exact ⟨_, (SLRU.get_miss hn ((SLRU.contract hn hp).reach (SLRU.inv_init cs n lim p adm) ho hr) hok hnc).1 ha, rfl⟩

example : 4 ∉ (SLRU_cached SLRU_demo).ids ∧ (admitsBase SLRU_demo.base ⟨4, 7, -2⟩ && decide (7 ≤ SLRU.evenLimits 12 2 0)) = false := by decide +kernel

theorem C09_safe_SLRU_partial (cs n : Nat) (lim : Nat → Nat) (adm : Adm) (p : Perms) (hn : 1 ≤ n) (hp : p.rem = false) :
    Safe SLRU.algo (SLRU.init cs 0 adm n lim) (Calls p (Requests lim p)) :=
  (SLRU.contract hn hp).safe (SLRU.inv_init cs n lim p adm)

/-- C09 fails after `remove`: the byte counter of the segment is not reduced, and a later hit makes the cache evict from an empty list (NULL pointer). -/
theorem C09_safe_fails_SLRU_remove : faultOf SLRU.algo (SLRU.init 10 0 .none 2 (SLRU.evenLimits 10 2))
    [.get ⟨1, 5, -2⟩, .remove 1, .get ⟨2, 5, -2⟩, .get ⟨3, 5, -2⟩, .remove 3, .get ⟨4, 5, -2⟩, .get ⟨4, 5, -2⟩] = some .nullDeref := by decide +kernel

/-- C09 fails when object metadata is considered: five gets, and the cache evicts from an empty list. -/
theorem C09_safe_fails_SLRU_metadata : faultOf SLRU.algo (SLRU.init 40 16 .none 2 (SLRU.evenLimits 40 2))
    [.get ⟨1, 3, -2⟩, .get ⟨0, 1, -2⟩, .get ⟨1, 1, -2⟩, .get ⟨0, 2, -2⟩, .get ⟨2, 2, -2⟩] = some .nullDeref := by decide +kernel

/-- C09 fails for an eviction call on a cache that holds only an empty object. -/
theorem C09_safe_fails_SLRU_empty : faultOf SLRU.algo (SLRU.init 10 0 .none 2 (SLRU.evenLimits 10 2)) [.get ⟨1, 0, -2⟩, .evict ⟨2, 1, -2⟩] = some .nullDeref := by decide +kernel

/-- C09 fails for a client insertion of an object larger than a segment: the next hit evicts the object while `find` still uses it. -/
theorem C09_safe_fails_SLRU_insert : faultOf SLRU.algo (SLRU.init 10 0 .none 2 (SLRU.evenLimits 10 2)) [.insert ⟨1, 6, -2⟩, .get ⟨1, 6, -2⟩] = some .useAfterFree := by decide +kernel

/-- C09 fails for objects of 4 GiB and more: the stored size is truncated, the segment's byte counter is not. -/
theorem C09_safe_fails_SLRU_large : faultOf SLRU.algo (SLRU.init (2 ^ 33) 0 .none 2 (SLRU.evenLimits (2 ^ 33) 2))
    [.get ⟨1, 2 ^ 32, -2⟩, .get ⟨2, 1, -2⟩, .evict ⟨3, 1, -2⟩, .evict ⟨3, 1, -2⟩] = some .nullDeref := by decide +kernel

theorem C10_toEvictPredicts_SLRU_partial (cs n : Nat) (lim : Nat → Nat) (adm : Adm) (p : Perms) (hn : 1 ≤ n) (hp : p.rem = false) (he : p.ev = true) :
    ToEvictPredicts SLRU.algo SLRU_cached SLRU.toEvict (SLRU.init cs 0 adm n lim) (Calls p (Requests lim p)) := by
  intro ops out s ho hr hne r
  have hi := (SLRU.contract hn hp).reach (SLRU.inv_init cs n lim p adm) ho hr
  have hb : 0 < charge 0 s.base.cached := by
    cases hc : s.base.cached with
    | nil => exact absurd hc hne
    | cons y c =>
      have := hi.pos he y (by rw [hc]; exact List.mem_cons_self)
      simp only [charge]; omega
  obtain ⟨s', x, h1, h2, _, _, h5⟩ := SLRU.evict_spec hi hb
  exact ⟨x.1, x.2, s', h2, h1, h5⟩

example : SLRU.toEvict SLRU_demo = some 8 := by decide +kernel

/-! ## C22 -/

section
variable (cs n : Nat) (lim : Nat → Nat) (adm : Adm) (p : Perms) (hn : 1 ≤ n) (hp : p.rem = false) (ops : List Op) (out : List Bool) (s : SLRU.State)
  (ho : ∀ op ∈ ops, Calls p (Requests lim p) op) (hr : Reaches SLRU.algo (SLRU.init cs 0 adm n lim) ops out s)
include hn hp ho hr

/-- Every cached object is in exactly one segment, and segments hold only cached objects. -/
theorem C22_oneSegment_SLRU_partial : (∀ x, x ∈ SLRU_cached s ↔ ∃ k, k < n ∧ x ∈ SLRU_segs s k) ∧
    (∀ j k x y, x ∈ SLRU_segs s j → y ∈ SLRU_segs s k → x.1 = y.1 → j = k ∧ x = y) ∧ ∀ k, (SLRU_segs s k).ids.Nodup := by
  have hi := (SLRU.contract hn hp).reach (SLRU.inv_init cs n lim p adm) ho hr
  refine ⟨fun x => ?_, ?_, hi.abs.nd⟩
  · rw [hi.abs.mem_cached]
    exact ⟨fun ⟨k, hk⟩ => ⟨k, hi.abs.lt hk, hk⟩, fun ⟨k, _, hk⟩ => ⟨k, hk⟩⟩
  · intro j k x y hx hy e
    obtain ⟨o, h1, h2, h3⟩ := hi.abs.lookup hx
    obtain ⟨o', k1, k2, k3⟩ := hi.abs.lookup hy
    rw [← e, h1] at k1
    cases k1
    exact ⟨by rw [← h3, ← k3], Prod.ext e (by rw [← h2, ← k2])⟩

/-- Every segment but the lowest one is within its limit. -/
theorem C22_limits_SLRU_partial (k : Nat) (hk : 1 ≤ k) : bytes 0 (SLRU_segs s k) ≤ lim k := by
  rw [bytes_eq_charge]
  exact ((SLRU.contract hn hp).reach (SLRU.inv_init cs n lim p adm) ho hr).within k hk

/-- A hit: the segments afterwards are the specified ones. -/
theorem C22_hit_SLRU_partial (k : Nat) (x : ObjId × Nat) (hx : x ∈ SLRU_segs s k) (r : Req) (he : r.id = x.1) :
    ∃ s', SLRU.algo.get s r = .ok (true, s') ∧ SLRU_segs s' = hit lim n (SLRU_segs s) k x := by
  have hi := (SLRU.contract hn hp).reach (SLRU.inv_init cs n lim p adm) ho hr
  obtain ⟨s', h1, _, h3, _⟩ := SLRU.find_hit (hi.frame (s.base.nReq + 1) s.base.adm) hx r he
  exact ⟨s', get_hit h1, h3⟩

/-- In particular, an object that fits into the segment above becomes its most recent object. -/
theorem C22_promoted_SLRU_partial (k : Nat) (x : ObjId × Nat) (hx : x ∈ SLRU_segs s k) (hk : k + 1 < n) (hfit : x.2 ≤ lim (k + 1)) (r : Req) (he : r.id = x.1) :
    ∃ s', SLRU.algo.get s r = .ok (true, s') ∧ (SLRU_segs s' (k + 1)).head? = some x := by
  have hi := (SLRU.contract hn hp).reach (SLRU.inv_init cs n lim p adm) ho hr
  obtain ⟨s', h1, _, h3, _⟩ := SLRU.find_hit (hi.frame (s.base.nReq + 1) s.base.adm) hx r he
  refine ⟨s', get_hit h1, ?_⟩
  rw [SLRU_segs, h3, hit, if_neg (by omega), settle_self, put_self, keep, if_pos hfit]; rfl

/-- A miss that is admitted: evictions from the lowest segment that holds any bytes, then the object becomes the most recent one of the lowest segment with
room for it (of segment 0 if there is none). -/
theorem C22_miss_SLRU_partial (r : Req) (hok : Requests lim p r) (hnc : r.id ∉ (SLRU_cached s).ids)
    (ha : (admitsBase s.base r && decide (r.size ≤ lim 0)) = true) :
    ∃ s' victims a k, SLRU.algo.get s r = .ok (false, s') ∧ EvictsAll n (SLRU_segs s) victims a ∧ Target lim n a r.size k ∧
      SLRU_segs s' = put a k ((r.id, r.size) :: a k) := by
  obtain ⟨s', vs, a1, k, _, h1, _, h2, h3, h4, _⟩ :=
    (SLRU.get_miss hn ((SLRU.contract hn hp).reach (SLRU.inv_init cs n lim p adm) ho hr) hok hnc).2 ha
  exact ⟨s', vs, a1, k, h1, h2, h3, h4⟩

/-- The victim of `evict` is the oldest object of the lowest segment that holds any bytes. -/
theorem C22_victim_SLRU_partial (hb : 0 < bytes 0 (SLRU_cached s)) (r : Req) :
    ∃ s' x, SLRU.algo.evict s r = .ok s' ∧ EvictsLowest n (SLRU_segs s) x (SLRU_segs s') ∧ (SLRU_cached s).Perm (x :: SLRU_cached s') := by
  obtain ⟨s', x, h1, _, _, h2, h3⟩ := SLRU.evict_spec ((SLRU.contract hn hp).reach (SLRU.inv_init cs n lim p adm) ho hr) (by rw [← bytes_eq_charge]; exact hb)
  exact ⟨s', x, h1, h2, h3⟩

end

/-- a hit in the lower segment of the demo state: object 8 moves up, object 1 moves down -/
example : (match SLRU.algo.get SLRU_demo ⟨8, 2, -2⟩ with
    | .ok p => some (p.1, SLRU_segs p.2 0, SLRU_segs p.2 1)
    | .error _ => none) = some (true, [(1, 3)], [(8, 2), (2, 3)]) := by decide +kernel

/-- C22 fails for the lowest segment: when no segment has room but the cache has, the object goes to segment 0, here 6 bytes with a limit of 5. -/
theorem C22_limits_fails_SLRU : ∃ s, Reaches SLRU.algo (SLRU.init 10 0 .none 2 (SLRU.evenLimits 10 2)) [.get ⟨1, 3, -2⟩, .get ⟨2, 3, -2⟩, .get ⟨3, 3, -2⟩]
    [false, false, false] s ∧ bytes 0 (SLRU_segs s 0) = 6 ∧ s.lim 0 = 5 :=
  ⟨after SLRU.algo (SLRU.init 10 0 .none 2 (SLRU.evenLimits 10 2)) [.get ⟨1, 3, -2⟩, .get ⟨2, 3, -2⟩, .get ⟨3, 3, -2⟩], reaches_after (by decide +kernel), by decide +kernel, by decide +kernel⟩

end Verif.Props
