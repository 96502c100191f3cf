import Verif.Proof.ARCBounds
import Verif.Props.Demo
/-!
# Properties of ARC (libCacheSim/cache/eviction/ARC.c)

The statements are those of `Verif/Spec/Cache.lean` and `Verif/Spec/ARC.lean`.  They hold for every arithmetic `R` on the target `p` (so for every
adaptation of `p`), every cache size `cs`, every metadata size `md`, every admission policy and every sequence of `get` and `find`-with-update calls
with requests as in `Adaptive.Requests`.  The theorems named `_fails` show what goes wrong outside these bounds.
-/

namespace Verif.Props
open Verif Verif.Spec Verif.Spec.Adaptive
set_option linter.unusedVariables false
set_option maxRecDepth 20000

/-- what ARC has cached: the objects in its hash table that are not ghosts -/
abbrev ARC_cached {R : ARC.Arith} (s : ARC.State R) : Contents := ARC.cached s

/-- ids and sizes of the objects on each of the four lists, most recent first -/
abbrev ARC_lists {R : ARC.Arith} (s : ARC.State R) : Lists := ARC.lists s

/-- `get` and `find` with update only -/
abbrev getFind : Perms := { peek := false, rem := false, ev := false, ins := false }

abbrev ARC_X : Algo (ARC.State ARC.Arith.exact) := ARC.algo ARC.Arith.exact
def ARC_x0 (cs : Nat) : ARC.State ARC.Arith.exact := ARC.init cs 0 .none

/-- a demo run in exact arithmetic: hits in T1 and T2, evictions to B1 and B2, hits in B1, an object that is too large -/
def ARC_ops : List Op := [.get ⟨1, 2, -2⟩, .get ⟨2, 1, -2⟩, .get ⟨1, 2, -2⟩, .get ⟨3, 2, -2⟩, .get ⟨2, 1, -2⟩, .find ⟨1, 2, -2⟩ true, .get ⟨4, 9, -2⟩,
  .get ⟨5, 1, -2⟩, .get ⟨3, 2, -2⟩, .get ⟨6, 1, -2⟩, .get ⟨7, 2, -2⟩]

def ARC_demo : ARC.State ARC.Arith.exact := after ARC_X (ARC_x0 4) ARC_ops

theorem ARC_demo_reached : Reaches ARC_X (ARC_x0 4) ARC_ops [false, false, true, false, false, true, false, false, false, false, false] ARC_demo ∧
    ARC_lists ARC_demo .T1 = [(7, 2), (6, 1), (5, 1)] ∧ ARC_lists ARC_demo .T2 = [] ∧ ARC_lists ARC_demo .B1 = [] ∧ ARC_lists ARC_demo .B2 = [(3, 2), (1, 2), (2, 1)] :=
  ⟨reaches_after (by decide +kernel), by decide +kernel, by decide +kernel, by decide +kernel, by decide +kernel⟩

/-- the calls of the demo run are among those considered -/
example : ∀ op ∈ ARC_ops, Calls getFind (Requests 4 0) op := by
  intro op hop
  simp only [ARC_ops, List.mem_cons, List.not_mem_nil, or_false] at hop
  rcases hop with rfl | rfl | rfl | rfl | rfl | rfl | rfl | rfl | rfl | rfl | rfl <;> simp [Calls, Requests, u32]

section
variable (R : ARC.Arith) (cs md : Nat) (adm : Adm)

theorem C01_capacity_ARC_partial : Capacity (ARC.algo R) (ARC.init cs md adm) (Calls getFind (Requests cs md)) cs :=
  ARC.contract.capacity (ARC.inv_init cs md adm)

theorem C02_accounting_ARC_partial : Accounting (ARC.algo R) ARC_cached (ARC.init cs md adm) (Calls getFind (Requests cs md)) md :=
  ARC.contract.accounting (ARC.inv_init cs md adm)

theorem C03_hitIffCached_ARC_partial : HitIffCached (ARC.algo R) ARC_cached (ARC.init cs md adm) (Calls getFind (Requests cs md)) :=
  ARC.contract.hitIffCached (ARC.inv_init cs md adm)

theorem C04_noPhantom_ARC_partial : NoPhantom (ARC.algo R) ARC_cached (ARC.init cs md adm) (Calls getFind (Requests cs md)) :=
  ARC.contract.noPhantom (ARC.inv_init cs md adm) rfl (by intro h; cases h)

theorem C04_addsOnlyRequested_ARC_partial : AddsOnlyRequested (ARC.algo R) ARC_cached (ARC.init cs md adm) (Calls getFind (Requests cs md)) :=
  ARC.contract.addsOnlyRequested (ARC.inv_init cs md adm)

theorem C06_evictOnDemand_ARC_partial : EvictOnDemand (ARC.algo R) ARC_cached (ARC.init cs md adm) (Calls getFind (Requests cs md)) cs md := by
  refine ARC.contract.evictOnDemand (ARC.inv_init cs md adm) ?_
  intro s s' r hi hok hr hn hme hins
  have C := ARC.contract (R := R) (cs := cs) (md := md)
  rw [ARC.must hi, decide_eq_false_iff_not] at hme
  have hlt := hok hr.1
  obtain ⟨s2, h1, _, _, h3, _⟩ := ARC.insert_spec hi r hr.2 (by omega) hlt
  have : s2 = s' := by
    have hins' : ARC.insert s r = .ok s' := hins
    rw [h1] at hins'; cases hins'; rfl
  subst this
  rw [Nat.mod_eq_of_lt (by omega)]
  exact Or.inl h3

theorem C09_safe_ARC_partial : Safe (ARC.algo R) (ARC.init cs md adm) (Calls getFind (Requests cs md)) :=
  ARC.contract.safe (ARC.inv_init cs md adm)

/-- C05: the admission policy accepts the object, and it is not larger than the cache. -/
theorem C05_admittedMissCached_ARC_partial :
    AdmittedMissCached (ARC.algo R) ARC_cached (fun s r => admitsBase s.base r) (ARC.init cs md adm) (Calls getFind (Requests cs md)) := by
  intro ops out s ho hr r hok hnc ha
  have ha : admitsBase s.base r = true := ha
  have C := ARC.contract (R := R) (cs := cs) (md := md)
  have hi := C.reach (ARC.inv_init cs md adm) ho hr
  obtain ⟨s', h1, _⟩ := C.get r hok hi
  rw [decide_eq_false hnc] at h1
  refine ⟨s', h1, ?_⟩
  obtain ⟨hi', hc⟩ := ARC.get_cases hi hok h1
  have hlt : r.size + md < u32 := by
    apply hok
    simp only [admitsBase, Bool.and_eq_true, decide_eq_true_eq] at ha
    rw [hi.abs.mdz, hi.abs.csz] at ha; exact ha.2
  have hmem : (r.id, r.size) ∈ ARC.cached s' := by
    rw [hi'.abs.mem_cached]
    rcases hc with ⟨k, x, _, _, _, hb, _⟩ | ⟨k, x, _, _, _, _, _, hc, _⟩ | ⟨_, _, _, _, _, _, hc⟩
    · cases hb
    · rcases hc with ⟨hf, _⟩ | ⟨_, vs, a1, _, h5, _⟩
      · rw [ha] at hf; cases hf
      · rw [h5]; exact Or.inr List.mem_cons_self
    · rcases hc with ⟨hf, _⟩ | ⟨_, vs, a1, _, h5, _⟩
      · rw [ha] at hf; cases hf
      · rw [h5]; exact Or.inl List.mem_cons_self
  rw [Nat.mod_eq_of_lt (by omega)]; exact hmem

end

example : 4 ∉ (ARC_cached ARC_demo).ids ∧ admitsBase ARC_demo.base ⟨4, 3, -2⟩ = true := by decide +kernel

section
variable (R : ARC.Arith) (cs md : Nat) (adm : Adm) (ops : List Op) (out : List Bool) (s : ARC.State R)
  (ho : ∀ op ∈ ops, Calls getFind (Requests cs md) op) (hr : Reaches (ARC.algo R) (ARC.init cs md adm) ops out s)
include ho hr

/-- C07 for the first `remove` of a run, if the object is not a ghost. -/
theorem C07_removeExact_ARC_partial (id : ObjId) (hg : id ∉ (ARC_lists s .B1).ids ∧ id ∉ (ARC_lists s .B2).ids) :
    ∃ s', (ARC.algo R).remove s id = .ok (decide (id ∈ (ARC_cached s).ids), s') ∧ (ARC_cached s').Perm ((ARC_cached s).filter (fun x => x.1 ≠ id)) ∧
      ARC_lists s' = fun k => without id (ARC_lists s k) := by
  obtain ⟨s', h1, _, h2, h3⟩ := ARC.remove_spec (ARC.contract.reach (ARC.inv_init cs md adm) ho hr) id hg
  exact ⟨s', h1, h2, h3⟩

/-- C08: a request that is not admitted leaves the cached objects and T1 and T2 alone; if the object is not a ghost, it also leaves B1, B2 and `p` alone. -/
theorem C08_rejectQuiet_ARC_partial (r : Req) (hok : Requests cs md r) (hn : r.id ∉ (ARC_cached s).ids) (ha : admitsBase s.base r = false) :
    ∃ s', (ARC.algo R).get s r = .ok (false, s') ∧ (ARC_cached s').Perm (ARC_cached s) ∧ ARC_lists s' .T1 = ARC_lists s .T1 ∧ ARC_lists s' .T2 = ARC_lists s .T2 ∧
      (r.id ∉ (ARC_lists s .B1).ids → r.id ∉ (ARC_lists s .B2).ids → ARC_lists s' = ARC_lists s ∧ s'.p = s.p) := by
  have C := ARC.contract (R := R) (cs := cs) (md := md)
  have hi := C.reach (ARC.inv_init cs md adm) ho hr
  obtain ⟨s', h1, _⟩ := C.get r hok hi
  rw [decide_eq_false hn] at h1
  refine ⟨s', h1, ?_⟩
  obtain ⟨hi', hc⟩ := ARC.get_cases hi hok h1
  have key : ARC_lists s' .T1 = ARC_lists s .T1 ∧ ARC_lists s' .T2 = ARC_lists s .T2 ∧
      (r.id ∉ (ARC_lists s .B1).ids → r.id ∉ (ARC_lists s .B2).ids → ARC_lists s' = ARC_lists s ∧ s'.p = s.p) := by
    rcases hc with ⟨k, x, _, _, _, hb, _⟩ | ⟨k, x, hk, hx, hxe, _, _, hc, _⟩ | ⟨_, _, hp, _, _, _, hc⟩
    · cases hb
    · rcases hc with ⟨_, h4, _⟩ | ⟨ht, _⟩
      · simp only [ARC_lists, h4]
        cases k with
        | T1 => simp [ARC.ghost] at hk
        | T2 => simp [ARC.ghost] at hk
        | B1 => exact ⟨rfl, rfl, fun hn1 _ => absurd (by rw [hxe]; exact List.mem_map_of_mem hx) hn1⟩
        | B2 => exact ⟨rfl, rfl, fun _ hn2 => absurd (by rw [hxe]; exact List.mem_map_of_mem hx) hn2⟩
      · rw [ha] at ht; cases ht
    · rcases hc with ⟨_, h4⟩ | ⟨ht, _⟩
      · simp only [ARC_lists, h4]; exact ⟨trivial, trivial, fun _ _ => ⟨trivial, hp⟩⟩
      · rw [ha] at ht; cases ht
  refine ⟨?_, key⟩
  have e := hi'.abs.cached_perm
  have e2 := hi.abs.cached_perm
  have k1 : ARC.lists s' .T1 = ARC.lists s .T1 := key.1
  have k2 : ARC.lists s' .T2 = ARC.lists s .T2 := key.2.1
  rw [k1, k2] at e
  exact e.trans e2.symm

/-- C10, with a request that fits into the cache, on a cache that holds any bytes: `to_evict` names the object that `evict` evicts. -/
theorem C10_toEvictPredicts_ARC_partial (r : Req) (hsz : r.size + md ≤ cs) (hb : 0 < bytes md (ARC_cached s)) :
    ∃ id n s', ARC.toEvict s r = some id ∧ (ARC.algo R).evict s r = .ok s' ∧ (ARC_cached s).Perm ((id, n) :: ARC_cached s') := by
  obtain ⟨s', x, h1, h2, _, _, h3, _⟩ := ARC.evict_spec (ARC.contract.reach (ARC.inv_init cs md adm) ho hr) r hsz (by rw [← bytes_eq_charge]; exact hb)
  exact ⟨x.1, x.2, s', h2, h1, h3⟩

/-! ## C24 -/

/-- Every object ARC knows is on exactly one of the four lists; the cached ones are those on T1 or T2. -/
theorem C24_oneList_ARC_partial : (∀ x, x ∈ ARC_cached s ↔ x ∈ ARC_lists s .T1 ∨ x ∈ ARC_lists s .T2) ∧
    (∀ j k x y, x ∈ ARC_lists s j → y ∈ ARC_lists s k → x.1 = y.1 → j = k ∧ x = y) ∧ (∀ k, (ARC_lists s k).ids.Nodup) ∧
    (∀ id, (∃ o ∈ s.base.tbl, o.id = id) ↔ ∃ k, id ∈ (ARC_lists s k).ids) := by
  have hi := ARC.contract.reach (ARC.inv_init cs md adm) ho hr
  refine ⟨fun x => hi.abs.mem_cached, fun j k x y hx hy e => hi.abs.rep.unique hx hy e, hi.abs.rep.nd, fun id => ?_⟩
  constructor
  · rintro ⟨o, h1, rfl⟩
    exact ⟨o.mt, List.mem_map.2 ⟨_, hi.abs.rep.mem_of (lookup_of_mem hi.abs.rep.nodup h1), rfl⟩⟩
  · rintro ⟨k, hk⟩
    obtain ⟨x, hx, rfl⟩ := List.mem_map.1 hk
    obtain ⟨o, h1, _⟩ := hi.abs.obj hx
    obtain ⟨h2, h3⟩ := lookup_some_mem h1
    exact ⟨o, h2, h3⟩

/-- The byte counters of the lists equal the lists' contents. -/
theorem C24_counters_ARC_partial (k : Lst) : s.sz k = (bytes md (ARC_lists s k) : Nat) := by
  rw [bytes_eq_charge]
  exact (ARC.contract.reach (ARC.inv_init cs md adm) ho hr).abs.qs.z k

/-- The cached bytes are within the cache size. -/
theorem C24_bytes_ARC_partial : bytes md (ARC_lists s .T1) + bytes md (ARC_lists s .T2) ≤ cs := by
  rw [bytes_eq_charge, bytes_eq_charge]
  exact (ARC.contract.reach (ARC.inv_init cs md adm) ho hr).abs.cap

/-- Case I, a hit: the object becomes the most recent one of T2, nothing else changes. -/
theorem C24_hit_ARC_partial (k : Lst) (hk : k = .T1 ∨ k = .T2) (x : ObjId × Nat) (hx : x ∈ ARC_lists s k) (r : Req) (he : r.id = x.1) (hok : Requests cs md r) :
    ∃ s', (ARC.algo R).get s r = .ok (true, s') ∧ ARC_lists s' = hit (ARC_lists s) k x ∧ s'.p = s.p := by
  have hi := ARC.contract.reach (ARC.inv_init cs md adm) ho hr
  have hg : ARC.ghost k = false := by rcases hk with rfl | rfl <;> rfl
  obtain ⟨s', h1, _, h3, _, h5, _⟩ := ARC.find_hit hi.bump hg hx r he
  exact ⟨s', get_hit h1, h3, h5⟩

/-- Cases II and III, an object that is a ghost: the answer is a miss, the ghost is forgotten and `p` is adapted.  If the object is admitted, REPLACE evicts
until it fits, and the object becomes the most recent one of T2. -/
theorem C24_ghostHit_ARC_partial (k : Lst) (hk : k = .B1 ∨ k = .B2) (x : ObjId × Nat) (hx : x ∈ ARC_lists s k) (r : Req) (he : r.id = x.1) (hok : Requests cs md r) :
    ∃ s', (ARC.algo R).get s r = .ok (false, s') ∧
      s'.p = (if k = .B1 then R.up s.p (bytes md (ARC_lists s .B2) : Nat) (bytes md (ARC_lists s .B1) : Nat) cs
        else R.down s.p (bytes md (ARC_lists s .B1) : Nat) (bytes md (ARC_lists s .B2) : Nat)) ∧
      (admitsBase s.base r = false → ARC_lists s' = drop (ARC_lists s) k x) ∧
      (admitsBase s.base r = true → ∃ victims a, EvictsAll (Replaces md (fun n => R.gt n s'.p) (fun n => R.eq n s'.p) (decide (k = .B2))) (drop (ARC_lists s) k x) victims a ∧
        ARC_lists s' = push a .T2 (r.id, r.size)) := by
  have C := ARC.contract (R := R) (cs := cs) (md := md)
  have hi := C.reach (ARC.inv_init cs md adm) ho hr
  have hg : ARC.ghost k = true := by rcases hk with rfl | rfl <;> rfl
  obtain ⟨s', h1, _⟩ := C.get r hok hi
  obtain ⟨hi', hc⟩ := ARC.get_cases hi hok h1
  rcases hc with ⟨j, y, hj, hy, hye, _⟩ | ⟨j, y, hj, hy, hye, hb, hp, hc, _⟩ | ⟨hno, _⟩
  · have := (hi.abs.rep.unique hx hy (he.symm.trans hye)).1
    rw [← this, hg] at hj; cases hj
  · obtain ⟨e1, e2⟩ := hi.abs.rep.unique hx hy (he.symm.trans hye)
    subst e1; subst e2
    rw [hb] at h1
    refine ⟨s', h1, ?_, ?_, ?_⟩
    · simp only [bytes_eq_charge]; exact hp
    · intro ha
      rcases hc with ⟨_, h4, _⟩ | ⟨ht, _⟩
      · exact h4
      · rw [ha] at ht; cases ht
    · intro ha
      rcases hc with ⟨hf, _⟩ | ⟨_, vs, a1, h4, h5, _⟩
      · rw [ha] at hf; cases hf
      · exact ⟨vs, a1, h4, h5⟩
  · exact absurd (by rw [he]; exact List.mem_map_of_mem hx) (hno k)

/-- Case IV, an object on no list that is admitted: evictions until it fits, then it becomes the most recent object of T1.  The flag `curr_obj_in_L2_ghost` of the state
takes part in the choice; see `C24_flags_ARC` and `C24_staleFlag_fails_ARC`. -/
theorem C24_miss_ARC_partial (r : Req) (hok : Requests cs md r) (hn : ∀ k, r.id ∉ (ARC_lists s k).ids) (ha : admitsBase s.base r = true) :
    ∃ s' victims a, (ARC.algo R).get s r = .ok (false, s') ∧
      EvictsAll (MissEvicts cs md r.size (fun n => R.gt n s.p) (fun n => R.eq n s.p) s.inB2) (ARC_lists s) victims a ∧
      ARC_lists s' = push a .T1 (r.id, r.size) ∧ s'.p = s.p := by
  have C := ARC.contract (R := R) (cs := cs) (md := md)
  have hi := C.reach (ARC.inv_init cs md adm) ho hr
  obtain ⟨s', h1, _⟩ := C.get r hok hi
  obtain ⟨hi', hc⟩ := ARC.get_cases hi hok h1
  rcases hc with ⟨j, y, hj, hy, hye, _⟩ | ⟨j, y, hj, hy, hye, _⟩ | ⟨hno, hb, hp, _, _, _, hc⟩
  · exact absurd (by rw [hye]; exact List.mem_map_of_mem hy) (hn j)
  · exact absurd (by rw [hye]; exact List.mem_map_of_mem hy) (hn j)
  · rw [hb] at h1
    rcases hc with ⟨hf, _⟩ | ⟨_, vs, a1, h4, h5, _⟩
    · rw [ha] at hf; cases hf
    · exact ⟨s', vs, a1, h1, h4, h5, hp⟩

/-- `evict` called by the client, with a request that fits, on a cache that holds any bytes: one eviction as in case IV, or, right after a ghost hit
that was not followed by an insertion, by REPLACE. -/
theorem C24_victim_ARC_partial (r : Req) (hsz : r.size + md ≤ cs) (hb : 0 < bytes md (ARC_cached s)) :
    ∃ s' x, (ARC.algo R).evict s r = .ok s' ∧ (ARC_cached s).Perm (x :: ARC_cached s') ∧
      (if s.vtime = s.base.nReq ∧ (s.inB1 = true ∨ s.inB2 = true) then Replaces md (fun n => R.gt n s.p) (fun n => R.eq n s.p) s.inB2 (ARC_lists s) x (ARC_lists s')
       else MissEvicts cs md r.size (fun n => R.gt n s.p) (fun n => R.eq n s.p) s.inB2 (ARC_lists s) x (ARC_lists s')) := by
  obtain ⟨s', x, h1, _, _, h4, h3, _⟩ := ARC.evict_spec (ARC.contract.reach (ARC.inv_init cs md adm) ho hr) r hsz (by rw [← bytes_eq_charge]; exact hb)
  refine ⟨s', x, h1, h3, ?_⟩
  have e : (s.vtime = s.base.nReq ∧ (s.inB1 = true ∨ s.inB2 = true)) ↔ ARC.afterGhostHit s = true := by
    simp [ARC.afterGhostHit]
  simp only [e]
  exact h4

end

/-- If every request is a `get` of an object that fits and there is no admission policy, the ghost flags are down between requests, so case IV is that of the paper. -/
theorem C24_flags_ARC_partial (R : ARC.Arith) (cs md : Nat) (ops : List Op) (out : List Bool) (s : ARC.State R)
    (ho : ∀ op ∈ ops, ∃ r : Req, op = .get r ∧ r.size + md ≤ cs ∧ r.size + md < u32) (hr : Reaches (ARC.algo R) (ARC.init cs md .none) ops out s) :
    s.inB1 = false ∧ s.inB2 = false := by
  have := run_inv (A := ARC.algo R) (okOp := ARC.Admitted cs md) (P := fun s => ARC.Inv cs md s ∧ s.base.adm = .none ∧ s.inB1 = false ∧ s.inB2 = false)
    (fun hop h hs => ARC.flags_step hop h hs) ⟨ARC.inv_init cs md .none, rfl, rfl, rfl⟩ ho hr
  exact this.2.2

/-- The bounds of the paper, for objects of one byte without metadata: T1 and B1 together hold at most `cs` objects, the four lists at most `2 * cs`, and there are
no ghosts until the cache is full. -/
theorem C24_unitBounds_ARC_partial (R : ARC.Arith) (cs : Nat) (adm : Adm) (ops : List Op) (out : List Bool) (s : ARC.State R)
    (ho : ∀ op ∈ ops, Calls getFind (fun r => r.size = 1) op) (hr : Reaches (ARC.algo R) (ARC.init cs 0 adm) ops out s) :
    (ARC_lists s .T1).length + (ARC_lists s .B1).length ≤ cs ∧
    (ARC_lists s .T1).length + (ARC_lists s .T2).length + (ARC_lists s .B1).length + (ARC_lists s .B2).length ≤ 2 * cs ∧
    ((ARC_lists s .T1).length + (ARC_lists s .T2).length < cs → ARC_lists s .B1 = [] ∧ ARC_lists s .B2 = []) := by
  have := run_inv (A := ARC.algo R) (okOp := Calls getFind (fun r => r.size = 1)) (P := fun s => ARC.Inv cs 0 s ∧ ARC.Bounds cs (ARC.lists s))
    (fun hop h hs => ARC.bounds_step hop h hs) ⟨ARC.inv_init cs 0 adm, ARC.bounds_init cs adm⟩ ho hr
  exact ⟨this.2.l1, this.2.total, this.2.full⟩

/-- In exact arithmetic the target stays between 0 and the cache size. -/
theorem C24_target_ARC_partial (cs md : Nat) (adm : Adm) (ops : List Op) (out : List Bool) (s : ARC.State ARC.Arith.exact)
    (ho : ∀ op ∈ ops, Calls getFind (Requests cs md) op) (hr : Reaches ARC_X (ARC.init cs md adm) ops out s) : (0 : Rat) ≤ (id s.p : Rat) ∧ (id s.p : Rat) ≤ (cs : Rat) := by
  have := run_inv (A := ARC_X) (okOp := Calls getFind (Requests cs md)) (P := fun s => ARC.Inv cs md s ∧ ARC.InRange cs s.p)
    (fun hop h hs => ARC.range_step hop h hs) ⟨ARC.inv_init cs md adm, le_refl (0 : Rat), Nat.cast_nonneg cs⟩ ho hr
  exact this.2

/-! ## What goes wrong -/

/-- C09 fails for `find` without update on an object that is not in the hash table: NULL pointer. -/
theorem C09_safe_fails_ARC_find : faultOf ARC_X (ARC_x0 4) [.find ⟨1, 1, -2⟩ false] = some .nullDeref := by decide +kernel

/-- Removing a ghost answers `true` although it is not cached (C07), and leaves it in the hash table without a list: the next request for it uses the list links of
an object that is on no list (C09). -/
theorem C09_safe_fails_ARC_removeGhost : answers ARC_X (ARC_x0 2) [.get ⟨1, 1, -2⟩, .get ⟨1, 1, -2⟩, .get ⟨2, 1, -2⟩, .get ⟨3, 1, -2⟩, .remove 2] = some [false, true, false, false, true] ∧
    ARC_cached (after ARC_X (ARC_x0 2) [.get ⟨1, 1, -2⟩, .get ⟨1, 1, -2⟩, .get ⟨2, 1, -2⟩, .get ⟨3, 1, -2⟩]) = [(3, 1), (1, 1)] ∧
    faultOf ARC_X (ARC_x0 2) [.get ⟨1, 1, -2⟩, .get ⟨1, 1, -2⟩, .get ⟨2, 1, -2⟩, .get ⟨3, 1, -2⟩, .remove 2, .get ⟨2, 1, -2⟩] = some .notLinked := by
  refine ⟨?_, ?_, ?_⟩ <;> decide +kernel

/-- C09 fails for a client's eviction call with a request larger than the cache: the object is taken from the empty list T1 (NULL pointer). -/
theorem C09_safe_fails_ARC_evictLarge : faultOf ARC_X (ARC_x0 2) [.get ⟨1, 1, -2⟩, .get ⟨1, 1, -2⟩, .evict ⟨2, 5, -2⟩] = some .nullDeref := by decide +kernel

/-- C09 fails for a client's eviction call when T2 holds an empty object and T1 nothing. -/
theorem C09_safe_fails_ARC_evictEmpty : faultOf ARC_X (ARC_x0 2) [.get ⟨1, 0, -2⟩, .get ⟨1, 0, -2⟩, .evict ⟨2, 1, -2⟩] = some .nullDeref := by decide +kernel

/-- C09 fails for objects of 4 GiB and more, with `get` only: the stored size is truncated, the byte counter of the list is not. -/
theorem C09_safe_fails_ARC_large : faultOf ARC_X (ARC_x0 (2 ^ 33)) [.get ⟨1, 2 ^ 32, -2⟩, .get ⟨1, 2 ^ 32, -2⟩, .get ⟨2, 2 ^ 32 - 1, -2⟩, .get ⟨2, 2 ^ 32 - 1, -2⟩,
    .get ⟨3, 2 ^ 32 - 1, -2⟩, .get ⟨3, 2 ^ 32 - 1, -2⟩, .get ⟨4, 3, -2⟩] = some .nullDeref := by decide +kernel

/-- C08 fails for ghosts: a request for object 3 that is too large to be admitted makes ARC forget the ghost 3 and moves `p`. -/
theorem C08_rejectQuiet_fails_ARC : ARC_lists (after ARC_X ARC_demo [.get ⟨3, 9, -2⟩]) .B2 = [(1, 2), (2, 1)] ∧ ARC_lists ARC_demo .B2 = [(3, 2), (1, 2), (2, 1)] ∧
    answers ARC_X ARC_demo [.get ⟨3, 9, -2⟩] = some [false] ∧ admitsBase ARC_demo.base ⟨3, 9, -2⟩ = false := by
  refine ⟨?_, ?_, ?_, ?_⟩ <;> decide +kernel

/-- a history with a rejected request for a ghost of B2 -/
def ARC_stale : List Op := [.get ⟨3, 1, -2⟩, .get ⟨0, 1, -2⟩, .get ⟨5, 1, -2⟩, .get ⟨5, 1, -2⟩, .get ⟨6, 1, -2⟩, .get ⟨3, 1, -2⟩, .get ⟨0, 1, -2⟩, .get ⟨3, 1, -2⟩, .get ⟨5, 1000, -2⟩]

/-- C24, case IV, is not that of the paper after a rejected ghost hit: the flag that the last request hit B2 is still set when object 2, which is on no list, is
requested.  T1 holds exactly `p` bytes, so the paper takes the victim from T2; ARC evicts object 6 from T1. -/
theorem C24_staleFlag_fails_ARC : Reaches ARC_X (ARC_x0 3) ARC_stale [false, false, false, true, false, false, false, true, false] (after ARC_X (ARC_x0 3) ARC_stale) ∧
    ARC_lists (after ARC_X (ARC_x0 3) ARC_stale) .T1 = [(6, 1)] ∧ ARC_lists (after ARC_X (ARC_x0 3) ARC_stale) .T2 = [(3, 1), (0, 1)] ∧
    ARC.Arith.exact.gt 1 (after ARC_X (ARC_x0 3) ARC_stale).p = false ∧
    ARC_lists (after ARC_X (ARC_x0 3) (ARC_stale ++ [.get ⟨2, 1, -2⟩])) .T1 = [(2, 1)] ∧ ARC_lists (after ARC_X (ARC_x0 3) (ARC_stale ++ [.get ⟨2, 1, -2⟩])) .T2 = [(3, 1), (0, 1)] :=
  ⟨reaches_after (by decide +kernel), by decide +kernel, by decide +kernel, by decide +kernel, by decide +kernel, by decide +kernel⟩

/-- The bound of the paper on all four lists fails for objects of different sizes: 9 bytes with a cache of 4. -/
theorem C24_unitBounds_fails_ARC : ∃ s, Reaches ARC_X (ARC_x0 4) [.get ⟨2, 3, -2⟩, .get ⟨2, 3, -2⟩, .get ⟨7, 2, -2⟩, .get ⟨0, 1, -2⟩, .get ⟨7, 2, -2⟩, .get ⟨5, 3, -2⟩]
      [false, true, false, false, true, false] s ∧
    bytes 0 (ARC_lists s .T1) + bytes 0 (ARC_lists s .T2) + bytes 0 (ARC_lists s .B1) + bytes 0 (ARC_lists s .B2) = 9 :=
  ⟨after ARC_X (ARC_x0 4) [.get ⟨2, 3, -2⟩, .get ⟨2, 3, -2⟩, .get ⟨7, 2, -2⟩, .get ⟨0, 1, -2⟩, .get ⟨7, 2, -2⟩, .get ⟨5, 3, -2⟩], reaches_after (by decide +kernel), by decide +kernel⟩

/-! concrete cases of the C24 theorems -/

/-- a hit in T1, a ghost hit in B2 and a complete miss in the demo state -/
example : (6, 1) ∈ ARC_lists ARC_demo .T1 ∧ (1, 2) ∈ ARC_lists ARC_demo .B2 ∧ admitsBase ARC_demo.base ⟨1, 2, -2⟩ = true ∧
    ARC_lists (after ARC_X ARC_demo [.get ⟨1, 2, -2⟩]) .T1 = [(7, 2)] ∧ ARC_lists (after ARC_X ARC_demo [.get ⟨1, 2, -2⟩]) .T2 = [(1, 2)] ∧
    ARC_lists (after ARC_X ARC_demo [.get ⟨1, 2, -2⟩]) .B1 = [(6, 1), (5, 1)] ∧
    ARC_lists (after ARC_X ARC_demo [.get ⟨8, 2, -2⟩]) .T1 = [(8, 2), (7, 2)] ∧ ARC.toEvict ARC_demo ⟨8, 2, -2⟩ = some 5 := by
  refine ⟨?_, ?_, ?_, ?_, ?_, ?_, ?_, ?_⟩ <;> decide +kernel

/-- unit sizes: a full cache with ghosts -/
example : ARC_lists (after ARC_X (ARC_x0 3) (ARC_stale.take 7)) .T2 = [(0, 1), (3, 1)] ∧ ARC_lists (after ARC_X (ARC_x0 3) (ARC_stale.take 7)) .B2 = [(5, 1)] := by
  refine ⟨?_, ?_⟩ <;> decide +kernel

end Verif.Props
