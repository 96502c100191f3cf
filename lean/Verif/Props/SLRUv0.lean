import Verif.Proof.SLRUv0
import Verif.Props.Demo
/-!
# Properties of SLRUv0 (libCacheSim/cache/eviction/SLRUv0.c)

The statements are those of `Verif/Spec/Cache.lean` and `Verif/Spec/Segments.lean`.  They hold for every cache size `cs`, every metadata size `md`,
every number `n ≥ 1` of segments (of `cs / n` bytes each), every admission policy and every sequence of client calls without `find` with update, for the
requests described by `Segmented.Steady`.  The theorems named `_fails` show what goes wrong outside these bounds.
-/

namespace Verif.Props
open Verif Verif.Spec Verif.Spec.Segmented
set_option linter.unusedVariables false
set_option maxRecDepth 20000

/-- what SLRUv0 has cached: the objects in the hash tables of its segments -/
abbrev SLRUv0_cached (s : SLRUv0.State) : Contents := SLRUv0.cached s

/-- ids and charged bytes of the objects on the list of each segment, most recent first -/
abbrev SLRUv0_segs (s : SLRUv0.State) : Segs := SLRUv0.segs s

/-- no client `find` with update -/
abbrev noUpdate : Perms := { upd := false }

/-- a demo run on two segments of 6 bytes: insertion into both segments, a promotion with a demotion, a hit in the top segment, evictions,
a client insertion, a removal, a client eviction -/
def SLRUv0_ops : List Op := [.get ⟨1, 3, -2⟩, .get ⟨2, 3, -2⟩, .get ⟨3, 3, -2⟩, .get ⟨4, 2, -2⟩, .get ⟨2, 3, -2⟩, .find ⟨2, 3, -2⟩ false,
  .get ⟨2, 3, -2⟩, .get ⟨3, 3, -2⟩, .get ⟨5, 6, -2⟩, .remove 5, .insert ⟨6, 1, -2⟩, .insert ⟨9, 3, -2⟩, .evict ⟨7, 1, -2⟩, .get ⟨8, 2, -2⟩]

/-- the sizes of the objects in the demo run -/
def SLRUv0_sz : ObjId → Nat := fun id => match id with | 4 => 2 | 5 => 6 | 6 => 1 | 8 => 2 | 10 => 7 | _ => 3

def SLRUv0_demo0 : SLRUv0.State := SLRUv0.init 12 0 .none 2
def SLRUv0_demo : SLRUv0.State := after SLRUv0.algo SLRUv0_demo0 SLRUv0_ops

theorem SLRUv0_demo_reached : Reaches SLRUv0.algo SLRUv0_demo0 SLRUv0_ops
      [false, false, false, false, true, true, true, true, false, true, true, true, true, false] SLRUv0_demo ∧
    SLRUv0_segs SLRUv0_demo 0 = [(8, 2), (9, 3)] ∧ SLRUv0_segs SLRUv0_demo 1 = [(3, 3), (2, 3)] := ⟨reaches_after (by decide +kernel), by decide +kernel, by decide +kernel⟩

/-- the calls of the demo run are among those considered -/
example : ∀ op ∈ SLRUv0_ops, Calls noUpdate (Steady SLRUv0_sz (12 / 2) 0 noUpdate) op := by
  intro op hop
  simp only [SLRUv0_ops, List.mem_cons, List.not_mem_nil, or_false] at hop
  rcases hop with rfl | rfl | rfl | rfl | rfl | rfl | rfl | rfl | rfl | rfl | rfl | rfl | rfl | rfl <;> simp [Calls, Steady, SLRUv0_sz]

section
variable (sz : ObjId → Nat) (cs md n : Nat) (adm : Adm) (p : Perms) (hn : 1 ≤ n) (hp : p.upd = false)
include hn hp

theorem C01_capacity_SLRUv0_partial : Capacity SLRUv0.algo (SLRUv0.init cs md adm n) (Calls p (Steady sz (cs / n) md p)) cs :=
  (SLRUv0.contract hn hp).capacity (SLRUv0.inv_init sz cs md n p adm)

theorem C02_accounting_SLRUv0_partial : Accounting SLRUv0.algo SLRUv0_cached (SLRUv0.init cs md adm n) (Calls p (Steady sz (cs / n) md p)) md :=
  (SLRUv0.contract hn hp).accounting (SLRUv0.inv_init sz cs md n p adm)

theorem C03_hitIffCached_SLRUv0_partial : HitIffCached SLRUv0.algo SLRUv0_cached (SLRUv0.init cs md adm n) (Calls p (Steady sz (cs / n) md p)) :=
  (SLRUv0.contract hn hp).hitIffCached (SLRUv0.inv_init sz cs md n p adm)

theorem C04_noPhantom_SLRUv0_partial : NoPhantom SLRUv0.algo SLRUv0_cached (SLRUv0.init cs md adm n) (Calls p (Steady sz (cs / n) md p)) := by
  refine (SLRUv0.contract hn hp).noPhantom (SLRUv0.inv_init sz cs md n p adm) (SLRUv0.cached_init cs md n adm) ?_
  rintro _ s s' b id ⟨a, h, hs⟩ hr
  obtain ⟨s2, a2, h1, h2, _, h3⟩ := h.remove id
  have hr' : SLRUv0.remove s id = .ok (b, s') := hr
  rw [h1] at hr'
  injection hr' with hr'
  injection hr' with _ hr'
  subst hr'
  intro hm
  have := ((h.remove_perm h2 h3).map Prod.fst).mem_iff.1 hm
  simp at this

theorem C04_addsOnlyRequested_SLRUv0_partial :
    AddsOnlyRequested SLRUv0.algo SLRUv0_cached (SLRUv0.init cs md adm n) (Calls p (Steady sz (cs / n) md p)) :=
  (SLRUv0.contract hn hp).addsOnlyRequested (SLRUv0.inv_init sz cs md n p adm)

/-- C05: the admission policy accepts the object, and it is not larger than the cache or a segment. -/
theorem C05_admittedMissCached_SLRUv0_partial :
    AdmittedMissCached SLRUv0.algo SLRUv0_cached (fun s r => admitsBase s.base r && decide (r.size + md ≤ cs / n)) (SLRUv0.init cs md adm n)
      (Calls p (Steady sz (cs / n) md p)) := by
  intro ops out s ho hr r hok hnc ha
  have hi := (SLRUv0.contract hn hp).reach (SLRUv0.inv_init sz cs md n p adm) ho hr
  have hL : r.size + md ≤ cs / n := by
    simp only [Bool.and_eq_true, decide_eq_true_eq] at ha; exact ha.2
  have hu := SLRUv0.Steady.u32 hok hL
  obtain ⟨s', vs, a1, k, h1, _, _, _, _, h5⟩ := SLRUv0.get_admitted hn hi hok hnc ha
  exact ⟨s', h1, by rw [Nat.mod_eq_of_lt (by omega)]; exact h5⟩

theorem C07_removeExact_SLRUv0_partial : RemoveExact SLRUv0.algo SLRUv0_cached (SLRUv0.init cs md adm n) (Calls p (Steady sz (cs / n) md p)) := by
  intro ops out s ho hr id
  obtain ⟨a, h, _⟩ := (SLRUv0.contract hn hp).reach (SLRUv0.inv_init sz cs md n p adm) ho hr
  obtain ⟨s', a', h1, h2, _, h3⟩ := h.remove id
  exact ⟨s', h1, h.remove_perm h2 h3⟩

theorem C08_rejectQuiet_SLRUv0_partial :
    RejectQuiet SLRUv0.algo SLRUv0_cached (fun s r => admitsBase s.base r && decide (r.size + md ≤ cs / n)) (fun s => (s.n, s.seg)) (SLRUv0.init cs md adm n)
      (Calls p (Steady sz (cs / n) md p)) := by
  intro ops out s ho hr r hok hnc ha
  obtain ⟨s', h1, h2, h3⟩ := SLRUv0.get_rejected hn ((SLRUv0.contract hn hp).reach (SLRUv0.inv_init sz cs md n p adm) ho hr) hnc ha
  exact ⟨s', h1, by simp only [h2, h3]⟩

theorem C09_safe_SLRUv0_partial : Safe SLRUv0.algo (SLRUv0.init cs md adm n) (Calls p (Steady sz (cs / n) md p)) :=
  (SLRUv0.contract hn hp).safe (SLRUv0.inv_init sz cs md n p adm)

theorem C10_toEvictPredicts_SLRUv0_partial (he : p.ev = true) :
    ToEvictPredicts SLRUv0.algo SLRUv0_cached SLRUv0.toEvict (SLRUv0.init cs md adm n) (Calls p (Steady sz (cs / n) md p)) := by
  intro ops out s ho hr hne r
  have hi := (SLRUv0.contract hn hp).reach (SLRUv0.inv_init sz cs md n p adm) ho hr
  obtain ⟨a, h, hs⟩ := hi
  obtain ⟨x, hx⟩ := List.exists_mem_of_ne_nil _ hne
  obtain ⟨k, hk⟩ := (h.mem x).1 hx
  obtain ⟨i, hb⟩ := h.pos_of_mem hx ((hs k _ hk).2 he)
  obtain ⟨s', y, h1, h2, _, h4⟩ := SLRUv0.evict_inv (s := s) ⟨a, h, hs⟩ (i := i) (by rw [h.segs]; exact hb)
  exact ⟨y.1, _, s', h2, h1, h4⟩

end

example : SLRUv0.algo.occ SLRUv0_demo = 11 ∧ SLRUv0.algo.nObj SLRUv0_demo = 4 ∧ 4 ∉ (SLRUv0_cached SLRUv0_demo).ids ∧
    (admitsBase SLRUv0_demo.base ⟨4, 2, -2⟩ && decide (2 + 0 ≤ 12 / 2)) = true ∧
    (admitsBase SLRUv0_demo.base ⟨10, 7, -2⟩ && decide (7 + 0 ≤ 12 / 2)) = false ∧ SLRUv0.toEvict SLRUv0_demo = some 9 := by
  refine ⟨?_, ?_, ?_, ?_, ?_, ?_⟩ <;> decide +kernel

/-- C06 fails: a third object of 3 bytes fits into the cache of 10 bytes, but the first one is evicted because neither segment of 5 bytes has room. -/
theorem C06_evictOnDemand_fails_SLRUv0 : ¬ EvictOnDemand SLRUv0.algo SLRUv0_cached (SLRUv0.init 10 0 .none 2)
    (Calls noUpdate (Steady (fun _ => 3) (10 / 2) 0 noUpdate)) 10 0 := by
  intro h
  have h1 : Reaches SLRUv0.algo (SLRUv0.init 10 0 .none 2) [.get ⟨1, 3, -2⟩, .get ⟨2, 3, -2⟩] [false, false]
      (after SLRUv0.algo (SLRUv0.init 10 0 .none 2) [.get ⟨1, 3, -2⟩, .get ⟨2, 3, -2⟩]) := reaches_after (by decide +kernel)
  obtain ⟨vs, kept, h2, h3, h4⟩ := (h _ _ _ (by
    intro op hop
    simp only [List.mem_cons, List.not_mem_nil, or_false] at hop
    rcases hop with rfl | rfl <;> simp [Calls, Steady]) h1 ⟨3, 3, -2⟩ false _ (by simp [Calls, Steady]) (get_after (by decide +kernel))).2 rfl
  have e1 : SLRUv0_cached (after SLRUv0.algo (SLRUv0.init 10 0 .none 2) [.get ⟨1, 3, -2⟩, .get ⟨2, 3, -2⟩]) = [(1, 3), (2, 3)] := by decide +kernel
  have e2 : SLRUv0_cached (after SLRUv0.algo (after SLRUv0.algo (SLRUv0.init 10 0 .none 2) [.get ⟨1, 3, -2⟩, .get ⟨2, 3, -2⟩]) [.get ⟨3, 3, -2⟩]) = [(3, 3), (2, 3)] := by decide +kernel
  rw [e1] at h2
  rw [e2] at h3
  have hl := h2.length_eq
  simp only [List.length_append, List.length_cons, List.length_nil] at hl
  have hk : kept.length = 2 ∨ kept.length = 1 := by
    rcases h3 with h3 | h3
    · left; have := h3.length_eq; simpa using this.symm
    · right; have := h3.length_eq; simpa using this.symm
  rcases hk with hk | hk
  · have : vs = [] := List.eq_nil_of_length_eq_zero (by omega)
    subst this
    rcases h3 with h3 | h3
    · have := (h2.trans h3.symm).mem_iff (a := (1, 3))
      simp at this
    · have := h3.length_eq
      simp only [List.length_cons, List.length_nil] at this
      omega
  · obtain ⟨v, rfl⟩ : ∃ v, vs = [v] := List.length_eq_one_iff.1 (by omega)
    obtain ⟨w, rfl⟩ : ∃ w, kept = [w] := List.length_eq_one_iff.1 hk
    have h5 := h4 [] v rfl
    have hv : v ∈ [(1, 3), (2, 3)] := h2.mem_iff.2 (by simp)
    have hw : w ∈ [(1, 3), (2, 3)] := h2.mem_iff.2 (by simp)
    simp only [List.mem_cons, List.not_mem_nil, or_false] at hv hw
    rcases hv with rfl | rfl <;> rcases hw with rfl | rfl <;> simp [bytes] at h5

/-- C06 fails on a hit too: object 1 moves up, object 2 moves down, and object 4 is evicted. -/
theorem C06_hitEvicts_fails_SLRUv0 : ∃ s s', Reaches SLRUv0.algo (SLRUv0.init 10 0 .none 2) [.get ⟨1, 2, -2⟩, .get ⟨4, 3, -2⟩, .get ⟨2, 4, -2⟩] [false, false, false] s ∧
    SLRUv0.algo.get s ⟨1, 2, -2⟩ = .ok (true, s') ∧ 4 ∈ (SLRUv0_cached s).ids ∧ 4 ∉ (SLRUv0_cached s').ids :=
  ⟨_, _, reaches_after (by decide +kernel), get_after (by decide +kernel), by decide +kernel, by decide +kernel⟩

/-- C09 fails when an object is requested with a larger size than before: the hit tries to make room for it in a segment that is too small and evicts from an
empty list (NULL pointer). -/
theorem C09_safe_fails_SLRUv0_sizes : faultOf SLRUv0.algo (SLRUv0.init 10 0 .none 2) [.get ⟨1, 3, -2⟩, .get ⟨1, 7, -2⟩] = some .nullDeref := by decide +kernel

/-- The same with a client call of `find`. -/
theorem C09_safe_fails_SLRUv0_find : faultOf SLRUv0.algo (SLRUv0.init 10 0 .none 2) [.get ⟨1, 3, -2⟩, .find ⟨1, 7, -2⟩ true] = some .nullDeref := by decide +kernel

/-- C09 fails for an eviction call on a cache that holds only an empty object in its upper segment. -/
theorem C09_safe_fails_SLRUv0_empty : faultOf SLRUv0.algo (SLRUv0.init 10 0 .none 2) [.get ⟨1, 0, -2⟩, .get ⟨1, 0, -2⟩, .evict ⟨2, 1, -2⟩] = some .nullDeref := by decide +kernel

/-- C09 fails for a client insertion of an object larger than a segment. -/
theorem C09_safe_fails_SLRUv0_insert : faultOf SLRUv0.algo (SLRUv0.init 10 0 .none 2) [.insert ⟨1, 6, -2⟩] = some .nullDeref := by decide +kernel

/-! ## C74 -/

section
variable (sz : ObjId → Nat) (cs md n : Nat) (adm : Adm) (p : Perms) (hn : 1 ≤ n) (hp : p.upd = false) (ops : List Op) (out : List Bool) (s : SLRUv0.State)
  (ho : ∀ op ∈ ops, Calls p (Steady sz (cs / n) md p) op) (hr : Reaches SLRUv0.algo (SLRUv0.init cs md adm n) ops out s)
include hn hp ho hr

/-- Every cached object is in exactly one segment, charged its size and its metadata, and segments hold only cached objects. -/
theorem C74_oneSegment_SLRUv0_partial : (∀ x, x ∈ SLRUv0_cached s ↔ ∃ k, k < n ∧ (x.1, x.2 + md) ∈ SLRUv0_segs s k) ∧
    (∀ j k x y, x ∈ SLRUv0_segs s j → y ∈ SLRUv0_segs s k → x.1 = y.1 → j = k ∧ x = y) ∧ ∀ k, (SLRUv0_segs s k).ids.Nodup := by
  obtain ⟨a, h, _⟩ := (SLRUv0.contract hn hp).reach (SLRUv0.inv_init sz cs md n p adm) ho hr
  rw [SLRUv0_segs, h.segs]
  refine ⟨fun x => ?_, fun j k x y hx hy e => h.abs.same hx hy e, h.abs.nd⟩
  rw [h.mem]
  exact ⟨fun ⟨k, hk⟩ => ⟨k, h.abs.lt hk, hk⟩, fun ⟨k, _, hk⟩ => ⟨k, hk⟩⟩

/-- Every segment is within its limit. -/
theorem C74_limits_SLRUv0_partial (k : Nat) : bytes 0 (SLRUv0_segs s k) ≤ cs / n := by
  obtain ⟨a, h, _⟩ := (SLRUv0.contract hn hp).reach (SLRUv0.inv_init sz cs md n p adm) ho hr
  rw [bytes_eq_charge, SLRUv0_segs, h.segs]; exact h.within k

/-- A hit: nothing happens in the top segment; elsewhere the object moves to the recent end of the segment above, which passes its oldest objects down until it
is within its limit. -/
theorem C74_hit_SLRUv0_partial (k : Nat) (x : ObjId × Nat) (hx : x ∈ SLRUv0_segs s k) (r : Req) (he : r.id = x.1) (hsz : r.size = sz r.id) :
    ∃ s', SLRUv0.algo.get s r = .ok (true, s') ∧ SLRUv0_segs s' = fifoHit (fun _ => cs / n) n (SLRUv0_segs s) k x := by
  obtain ⟨s', h1, h2, _⟩ := SLRUv0.get_hits ((SLRUv0.contract hn hp).reach (SLRUv0.inv_init sz cs md n p adm) ho hr) hx he hsz
  exact ⟨s', h1, h2⟩

/-- In particular, the object becomes the most recent one of the segment above. -/
theorem C74_promoted_SLRUv0_partial (k : Nat) (x : ObjId × Nat) (hx : x ∈ SLRUv0_segs s k) (hk : k + 1 < n) (r : Req) (he : r.id = x.1) (hsz : r.size = sz r.id) :
    ∃ s', SLRUv0.algo.get s r = .ok (true, s') ∧ (SLRUv0_segs s' (k + 1)).head? = some x := by
  have hi := (SLRUv0.contract hn hp).reach (SLRUv0.inv_init sz cs md n p adm) ho hr
  obtain ⟨s', h1, h2, _⟩ := SLRUv0.get_hits hi hx he hsz
  refine ⟨s', h1, ?_⟩
  obtain ⟨a, h, _⟩ := hi
  have hfit : x.2 ≤ cs / n := by
    rw [SLRUv0_segs, h.segs] at hx
    exact Nat.le_trans (SegCaches.charge_mem hx) (h.within k)
  rw [SLRUv0_segs, h2, fifoHit, if_neg (by omega), settle_self, put_self, keep, if_pos hfit]; rfl

/-- A miss that is admitted: evictions from the lowest segment that holds any bytes, as few as make the total fit into the cache; then the object becomes the most
recent one of the lowest segment with room for it; if none has room, of segment 0, which drops its oldest objects until it is within its limit. -/
theorem C74_miss_SLRUv0_partial (r : Req) (hok : Steady sz (cs / n) md p r) (hnc : r.id ∉ (SLRUv0_cached s).ids)
    (ha : (admitsBase s.base r && decide (r.size + md ≤ cs / n)) = true) :
    ∃ s' victims a k, SLRUv0.algo.get s r = .ok (false, s') ∧ EvictsAll n (SLRUv0_segs s) victims a ∧ Target (fun _ => cs / n) n a (r.size + md) k ∧
      SLRUv0_segs s' = settle (fun _ => cs / n) k (put a k ((r.id, r.size + md) :: a k)) ∧
      ∀ vs v, victims = vs ++ [v] → v.2 + ((List.range n).map (fun k => bytes 0 (a k))).sum + r.size + md > cs := by
  obtain ⟨s', vs, a1, k, h1, h2, h3, h4, h5, _⟩ :=
    SLRUv0.get_admitted hn ((SLRUv0.contract hn hp).reach (SLRUv0.inv_init sz cs md n p adm) ho hr) hok hnc ha
  refine ⟨s', vs, a1, k, h1, h2, h3, h4, ?_⟩
  simp only [bytes_eq_charge]; exact h5

/-- The victim of `evict` is the oldest object of the lowest segment that holds any bytes. -/
theorem C74_victim_SLRUv0_partial (k : Nat) (hb : 0 < bytes 0 (SLRUv0_segs s k)) (r : Req) :
    ∃ s' x, SLRUv0.algo.evict s r = .ok s' ∧ EvictsLowest n (SLRUv0_segs s) x (SLRUv0_segs s') ∧ (SLRUv0_cached s).Perm ((x.1, x.2 - md) :: SLRUv0_cached s') := by
  obtain ⟨s', x, h1, _, h2, h3⟩ := SLRUv0.evict_inv ((SLRUv0.contract hn hp).reach (SLRUv0.inv_init sz cs md n p adm) ho hr) (by rw [← bytes_eq_charge]; exact hb)
  exact ⟨s', x, h1, h2, h3⟩

/-- Removing an object takes it out of its segment and leaves the order in all segments alone. -/
theorem C74_remove_SLRUv0_partial (id : ObjId) :
    ∃ s', SLRUv0.algo.remove s id = .ok (decide (id ∈ (SLRUv0_cached s).ids), s') ∧ ∀ k, SLRUv0_segs s' k = without id (SLRUv0_segs s k) := by
  obtain ⟨a, h, _⟩ := (SLRUv0.contract hn hp).reach (SLRUv0.inv_init sz cs md n p adm) ho hr
  obtain ⟨s', a', h1, h2, _, h3⟩ := h.remove id
  refine ⟨s', h1, ?_⟩
  rw [SLRUv0_segs, SLRUv0_segs, h.segs, h2.segs]; exact h3

end

/-- a hit in the lower segment of the demo state: object 8 moves up, object 2 moves down, object 9 stays -/
example : (match SLRUv0.algo.get SLRUv0_demo ⟨8, 2, -2⟩ with
    | .ok p => some (p.1, SLRUv0_segs p.2 0, SLRUv0_segs p.2 1)
    | .error _ => none) = some (true, [(2, 3), (9, 3)], [(8, 2), (3, 3)]) := by decide +kernel

/-- C74 fails if the top segment is to be kept in least-recently-used order: with one segment, object 1 is evicted although it was requested after object 2. -/
theorem C74_recency_fails_SLRUv0 : ∃ s, Reaches SLRUv0.algo (SLRUv0.init 4 0 .none 1) [.get ⟨1, 2, -2⟩, .get ⟨2, 2, -2⟩, .get ⟨1, 2, -2⟩, .get ⟨3, 2, -2⟩]
    [false, false, true, false] s ∧ SLRUv0_segs s 0 = [(3, 2), (2, 2)] :=
  ⟨_, reaches_after (by decide +kernel), by decide +kernel⟩

end Verif.Props
