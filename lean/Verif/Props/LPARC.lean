import Verif.Proof.LPARCTarget
import Verif.Props.ARCv0
/-!
# Properties of LP_ARC (libCacheSim/cache/eviction/fifo/LP_ARC.c)

The statements are those of `Verif/Spec/Cache.lean` and `Verif/Spec/LazyARC.lean`.  They hold for every arithmetic `R` on the target `p`, every cache size and every
sequence of `get`, `find` without update and `remove` calls in which every object has one size and fits into the cache (`Fits`), where not stated otherwise.  The theorems
named `_fails` show what goes wrong outside these bounds.  LP_ARC has no admission policy.  Object metadata is not considered.
-/

namespace Verif.Props
open Verif Verif.Spec Verif.Spec.LazyARC
set_option linter.unusedVariables false
set_option maxRecDepth 20000

/-- what LP_ARC has cached: the objects of T1 and T2 -/
abbrev LPARC_cached {R : ARC.Arith} (s : LPARC.State R) : Contents := LPARC.cached s

/-- the four lists and the target: T1 and T2 oldest object first, with the marks of CLOCK, B1 and B2 most recent object first -/
abbrev LPARC_view {R : ARC.Arith} (s : LPARC.State R) : St R.P := LPARC.view s

/-- how LP_ARC uses the target -/
abbrev LPARC_aim (R : ARC.Arith) (cs : Nat) : Aim R.P := LPARC.aim R cs

/-- no `find` with update, no client evictions or insertions -/
abbrev getPeekRemove : Perms := { upd := false, ev := false, ins := false }

abbrev LPARC_X : Algo (LPARC.State ARC.Arith.exact) := LPARC.algo ARC.Arith.exact
def LPARC_x0 (cs : Nat) : LPARC.State ARC.Arith.exact := LPARC.init cs

/-- a demo run in exact arithmetic: hits in T1 and T2, evictions to B1 and B2, ghost hits, a second chance, a removal -/
def LPARC_ops : List Op := [.get ⟨1, 2, -2⟩, .get ⟨2, 1, -2⟩, .get ⟨1, 2, -2⟩, .get ⟨3, 2, -2⟩, .get ⟨2, 1, -2⟩, .get ⟨1, 2, -2⟩, .find ⟨1, 2, -2⟩ false,
  .get ⟨5, 1, -2⟩, .get ⟨6, 2, -2⟩, .get ⟨3, 2, -2⟩, .get ⟨7, 1, -2⟩, .get ⟨5, 1, -2⟩, .get ⟨9, 1, -2⟩, .get ⟨10, 1, -2⟩, .remove 9, .get ⟨8, 1, -2⟩]

/-- the sizes of the objects in the demo run -/
def LPARC_sz : ObjId → Nat := fun id => match id with | 1 => 2 | 3 => 2 | 6 => 2 | _ => 1

def LPARC_demo : LPARC.State ARC.Arith.exact := after LPARC_X (LPARC_x0 5) LPARC_ops

theorem LPARC_demo_reached :
    Reaches LPARC_X (LPARC_x0 5) LPARC_ops [false, false, true, false, true, true, true, false, false, false, false, false, false, false, true, false] LPARC_demo ∧
    (LPARC_view LPARC_demo).t1 = [⟨7, 1, 0⟩, ⟨10, 1, 0⟩, ⟨8, 1, 0⟩] ∧ (LPARC_view LPARC_demo).t2 = [⟨5, 1, 0⟩] ∧ (LPARC_view LPARC_demo).b1 = [(6, 2)] ∧
    (LPARC_view LPARC_demo).b2 = [(1, 2), (3, 2)] :=
  ⟨reaches_after (by decide +kernel), by decide +kernel, by decide +kernel, by decide +kernel, by decide +kernel⟩

theorem LPARC_demo_calls : ∀ op ∈ LPARC_ops, Calls getPeekRemove (Fits 5 LPARC_sz) op := by
  intro op hop
  simp only [LPARC_ops, List.mem_cons, List.not_mem_nil, or_false] at hop
  rcases hop with rfl | rfl | rfl | rfl | rfl | rfl | rfl | rfl | rfl | rfl | rfl | rfl | rfl | rfl | rfl | rfl <;> simp [Calls, Fits, LPARC_sz, u32]

section
variable (R : ARC.Arith) (sz : ObjId → Nat) (cs : Nat) (p : Perms) (hp : p.upd = false) (he : p.ev = false) (hins : p.ins = false)
include hp he hins

theorem C01_capacity_LPARC_partial : Capacity (LPARC.algo R) (LPARC.init cs) (Calls p (Fits cs sz)) cs :=
  (LPARC.contract hp he hins).capacity (LPARC.inv_init cs sz)

theorem C02_accounting_LPARC_partial : Accounting (LPARC.algo R) LPARC_cached (LPARC.init cs) (Calls p (Fits cs sz)) 0 :=
  (LPARC.contract hp he hins).accounting (LPARC.inv_init cs sz)

theorem C03_hitIffCached_LPARC_partial : HitIffCached (LPARC.algo R) LPARC_cached (LPARC.init cs) (Calls p (Fits cs sz)) :=
  (LPARC.contract hp he hins).hitIffCached (LPARC.inv_init cs sz)

theorem C04_noPhantom_LPARC_partial : NoPhantom (LPARC.algo R) LPARC_cached (LPARC.init cs) (Calls p (Fits cs sz)) := by
  refine (LPARC.contract hp he hins).noPhantom (LPARC.inv_init cs sz) rfl ?_
  intro _ s s' b id hi h
  obtain ⟨s1, k1, k2, _⟩ := LPARC.Rep.remove_spec hi id
  rw [show (LPARC.algo R).remove s id = LPARC.remove s id from rfl, k1] at h
  injection h with h; injection h with _ h; subst h
  intro hm
  have no : ∀ l : List Item, id ∉ (ent (l.filter (fun x => x.id ≠ id))).ids := by
    intro l hm
    simp only [ent, Contents.ids, List.map_map, List.mem_map, List.mem_filter, Function.comp_apply] at hm
    obtain ⟨x, ⟨_, hx⟩, hxe⟩ := hm
    exact (of_decide_eq_true hx) hxe
  rcases (k2.mem id).1 hm with hm | hm
  · exact no _ hm
  · exact no _ hm

theorem C04_addsOnlyRequested_LPARC_partial : AddsOnlyRequested (LPARC.algo R) LPARC_cached (LPARC.init cs) (Calls p (Fits cs sz)) :=
  (LPARC.contract hp he hins).addsOnlyRequested (LPARC.inv_init cs sz)

/-- C05: LP_ARC has no admission policy: every miss is cached. -/
theorem C05_admittedMissCached_LPARC_partial : AdmittedMissCached (LPARC.algo R) LPARC_cached (fun _ _ => true) (LPARC.init cs) (Calls p (Fits cs sz)) := by
  intro ops out s ho hr r hok hnc _
  have hi := (LPARC.contract hp he hins).reach (LPARC.inv_init cs sz) ho hr
  obtain ⟨s1, t1, h1, h2, _, h3⟩ := LPARC.Rep.find_miss (LPARC.Rep.bump hi) r hnc
  obtain ⟨s', k1, _, _, k2⟩ := LPARC.Rep.rest h2 hok h1 h3
  exact ⟨s', k1, by rw [Nat.mod_eq_of_lt hok.2.2]; exact k2⟩

theorem C06_evictOnDemand_LPARC_partial : EvictOnDemand (LPARC.algo R) LPARC_cached (LPARC.init cs) (Calls p (Fits cs sz)) cs 0 :=
  LPARC.evictOnDemand hp he hins

theorem C09_safe_LPARC_partial : Safe (LPARC.algo R) (LPARC.init cs) (Calls p (Fits cs sz)) :=
  (LPARC.contract hp he hins).safe (LPARC.inv_init cs sz)

theorem C07_removeExact_LPARC_partial : RemoveExact (LPARC.algo R) LPARC_cached (LPARC.init cs) (Calls p (Fits cs sz)) := by
  intro ops out s ho hr id
  have hi := (LPARC.contract hp he hins).reach (LPARC.inv_init cs sz) ho hr
  obtain ⟨s', k1, k2, _⟩ := LPARC.Rep.remove_spec hi id
  refine ⟨s', ?_, ?_⟩
  · show LPARC.remove s id = _
    rw [k1]
    congr 2
    rw [decide_eq_decide, ((LPARC.Rep.cached hi).map Prod.fst).mem_iff]
  · refine k2.cached.symm.trans (List.Perm.trans ?_ ((LPARC.Rep.cached hi).filter _))
    simp only [contents, ent, List.filter_append, List.filter_map]
    exact List.Perm.refl _

/-! ## C10, C93 -/

/-- What is proved of C10: with a request that is not empty and fits into the cache, if T2 holds any bytes, `to_evict` names the object that `evict` evicts. -/
theorem C10_toEvictPredicts_LPARC_partial (ops : List Op) (out : List Bool) (s : LPARC.State R) (ho : ∀ op ∈ ops, Calls p (Fits cs sz) op)
    (hr : Reaches (LPARC.algo R) (LPARC.init cs) ops out s) (r : Req) (h0 : 0 < r.size) (hle : r.size ≤ cs) (hb : 0 < LazyARC.size (LPARC_view s).t2) :
    ∃ id n s', LPARC.toEvict s r = some id ∧ (LPARC.algo R).evict s r = .ok s' ∧ (LPARC_cached s).Perm ((id, n) :: LPARC_cached s') := by
  have hi := (LPARC.contract hp he hins).reach (LPARC.inv_init cs sz) ho hr
  rw [LPARC.size_eq] at hb
  obtain ⟨s', x, h1, h2, h3⟩ := LPARC.Rep.evict_spec hi r (Nat.lt_of_lt_of_le hb (Nat.le_add_left _ _)) h0 hle
  exact ⟨x.1, x.2, s', h3 hb, h1, (LPARC.Rep.cached hi).symm.trans (h2.perm.trans (h2.rep.cached.cons x))⟩

/-- C93: LP_ARC answers as the adaptive replacement with lazy promotion of `Verif/Spec/LazyARC.lean`, and holds the same objects on the same lists in the same order, with
the same marks and the same target. -/
theorem C93_follows_LPARC_partial (ops : List Op) (ho : ∀ op ∈ ops, Calls p (Fits cs sz) op) :
    ∃ s, Reaches (LPARC.algo R) (LPARC.init cs) ops (LazyARC.run (LPARC_aim R cs) cs ⟨[], [], [], [], R.zero⟩ ops).1 s ∧
      LPARC_view s = (LazyARC.run (LPARC_aim R cs) cs ⟨[], [], [], [], R.zero⟩ ops).2 ∧
      (LPARC_cached s).Perm (contents (LPARC_view s)) := by
  obtain ⟨s, h1, h2, _⟩ := LPARC.run_spec hp he hins ops (LPARC.init cs : LPARC.State R) ⟨[], [], [], [], R.zero⟩ ho (LPARC.inv_init cs sz) ⟨rfl, rfl⟩
  exact ⟨s, h1, h2.view, (LPARC.Rep.cached h2.inv).symm⟩

/-- C93: every object is on at most one of the four lists, and there once. -/
theorem C93_oneList_LPARC_partial (ops : List Op) (out : List Bool) (s : LPARC.State R) (ho : ∀ op ∈ ops, Calls p (Fits cs sz) op)
    (hr : Reaches (LPARC.algo R) (LPARC.init cs) ops out s) :
    (ent (LPARC_view s).t1 ++ ent (LPARC_view s).t2 ++ (LPARC_view s).b1 ++ (LPARC_view s).b2).ids.Nodup := by
  have hi := (LPARC.contract hp he hins).reach (LPARC.inv_init cs sz) ho hr
  have := hi.good.nodup
  simpa only [LPARC.all, List.append_assoc] using this

/-- C93: T1 and T2 together hold at most `cs` bytes, and so does each ghost list. -/
theorem C93_bytes_LPARC_partial (ops : List Op) (out : List Bool) (s : LPARC.State R) (ho : ∀ op ∈ ops, Calls p (Fits cs sz) op)
    (hr : Reaches (LPARC.algo R) (LPARC.init cs) ops out s) :
    LazyARC.size (LPARC_view s).t1 + LazyARC.size (LPARC_view s).t2 ≤ cs ∧ bytes 0 (LPARC_view s).b1 ≤ cs ∧ bytes 0 (LPARC_view s).b2 ≤ cs := by
  have hi := (LPARC.contract hp he hins).reach (LPARC.inv_init cs sz) ho hr
  simp only [LPARC.size_eq, bytes_eq_charge]
  exact ⟨hi.good.cap, hi.b1.le, hi.b2.le⟩

end

/-- C93: in exact arithmetic the target stays between 0 and the cache size. -/
theorem C93_target_LPARC_partial (sz : ObjId → Nat) (cs : Nat) (p : Perms) (hp : p.upd = false) (he : p.ev = false) (hins : p.ins = false) (ops : List Op) (out : List Bool)
    (s : LPARC.State ARC.Arith.exact) (ho : ∀ op ∈ ops, Calls p (Fits cs sz) op) (hr : Reaches LPARC_X (LPARC.init cs) ops out s) :
    (0 : Rat) ≤ (id s.p : Rat) ∧ (id s.p : Rat) ≤ (cs : Rat) := by
  obtain ⟨s', h1, h2, _⟩ := C93_follows_LPARC_partial ARC.Arith.exact sz cs p hp he hins ops ho
  have e : s = s' := by
    have := hr.symm.trans h1
    injection this with this; injection this
  subst e
  have := LazyARC.run_p (A := LPARC_aim ARC.Arith.exact cs) (cs := cs) (Q := ARC.InRange cs) (fun p x y h => ARC.up_range _ _ h) (fun p x y h => ARC.down_range _ _ h) ops
    ⟨[], [], [], [], ARC.Arith.exact.zero⟩ ⟨le_refl (0 : Rat), Nat.cast_nonneg cs⟩
  rw [← h2] at this
  exact this

/-! ## What goes wrong -/

/-- C01 fails when an object of T1 is requested with another size: 7 bytes are cached in a cache of 4. -/
theorem C01_capacity_fails_LPARC : ∃ s, Reaches LPARC_X (LPARC_x0 4) [.get ⟨1, 1, -2⟩, .get ⟨2, 3, -2⟩, .get ⟨1, 4, -2⟩] [false, false, true] s ∧
    bytes 0 (LPARC_cached s) = 7 ∧ LPARC_X.occ s = 7 :=
  ⟨after LPARC_X (LPARC_x0 4) [.get ⟨1, 1, -2⟩, .get ⟨2, 3, -2⟩, .get ⟨1, 4, -2⟩], reaches_after (by decide +kernel), by decide +kernel, by decide +kernel⟩

/-- C06 fails when an object of T1 is requested with a size larger than the cache: the answer is a hit, and the object is gone afterwards. -/
theorem C06_evictOnDemand_fails_LPARC : ∃ s, Reaches LPARC_X (LPARC_x0 4) [.get ⟨1, 1, -2⟩, .get ⟨2, 3, -2⟩, .get ⟨1, 5, -2⟩] [false, false, true] s ∧
    LPARC_cached s = [(2, 3)] :=
  ⟨after LPARC_X (LPARC_x0 4) [.get ⟨1, 1, -2⟩, .get ⟨2, 3, -2⟩, .get ⟨1, 5, -2⟩], reaches_after (by decide +kernel), by decide +kernel⟩

/-- C08 and C09 fail for an object larger than the cache: LP_ARC does not ask whether the object fits, evicts until nothing is left, and evicts from an empty list (NULL
pointer).  The first request of a run can do this. -/
theorem C09_safe_fails_LPARC_large : faultOf LPARC_X (LPARC_x0 4) [.get ⟨3, 5, -2⟩] = some .nullDeref ∧
    faultOf LPARC_X (LPARC_x0 4) [.get ⟨1, 1, -2⟩, .get ⟨2, 3, -2⟩, .get ⟨3, 5, -2⟩] = some .nullDeref := by
  refine ⟨?_, ?_⟩ <;> decide +kernel

/-- C09 fails for a client's eviction call with a request larger than the cache: the object is taken from the empty list T1 (NULL pointer). -/
theorem C09_safe_fails_LPARC_evictLarge : faultOf LPARC_X (LPARC_x0 2) [.get ⟨1, 1, -2⟩, .get ⟨1, 1, -2⟩, .evict ⟨2, 5, -2⟩] = some .nullDeref := by decide +kernel

/-- C09 fails for a client's eviction call when T2 holds an empty object and T1 nothing. -/
theorem C09_safe_fails_LPARC_evictEmpty : faultOf LPARC_X (LPARC_x0 2) [.get ⟨1, 0, -2⟩, .get ⟨1, 0, -2⟩, .evict ⟨2, 1, -2⟩] = some .nullDeref := by decide +kernel

/-- C09 fails for a client's eviction call with an empty request: T2 and B1 hold `cs` bytes each, and the loop that shrinks B2 finds B2 empty (NULL pointer). -/
theorem C09_safe_fails_LPARC_evictZero : faultOf LPARC_X (LPARC_x0 2) [.get ⟨2, 1, -2⟩, .get ⟨2, 1, -2⟩, .get ⟨4, 1, -2⟩, .get ⟨3, 1, -2⟩, .get ⟨3, 1, -2⟩, .get ⟨6, 1, -2⟩,
    .get ⟨2, 1, -2⟩, .evict ⟨9, 0, -2⟩] = some .nullDeref := by decide +kernel

/-- C10 fails when T2 holds no bytes and T1 is within its target: `to_evict` asks T2 and names no object, and `evict` evicts object 3 of T1. -/
theorem C10_toEvictPredicts_fails_LPARC : Reaches LPARC_X (LPARC_x0 3) ARCv0_noT2 [false, false, false, true, false, false, true, true] (after LPARC_X (LPARC_x0 3) ARCv0_noT2) ∧
    LPARC.toEvict (after LPARC_X (LPARC_x0 3) ARCv0_noT2) ⟨8, 1, -2⟩ = none ∧ LPARC_cached (after LPARC_X (LPARC_x0 3) ARCv0_noT2) = [(3, 1)] ∧
    LPARC_cached (after LPARC_X (LPARC_x0 3) (ARCv0_noT2 ++ [.evict ⟨8, 1, -2⟩])) = [] :=
  ⟨reaches_after (by decide +kernel), by decide +kernel, by decide +kernel, by decide +kernel⟩

/-- a client insert of a ghost -/
def LPARC_ghostInsert : List Op := [.get ⟨1, 1, -2⟩, .get ⟨1, 1, -2⟩, .get ⟨2, 1, -2⟩, .get ⟨3, 1, -2⟩, .remove 3, .insert ⟨2, 1, -2⟩]

/-- C93: with client inserts an object can be cached and a ghost at the same time.  The next request for it is answered as a hit, forgets the ghost, moves the target and
does not move the object to T2. -/
theorem C93_oneList_fails_LPARC :
    (LPARC_view (after LPARC_X (LPARC_x0 2) LPARC_ghostInsert)).t1 = [⟨2, 1, 0⟩] ∧ (LPARC_view (after LPARC_X (LPARC_x0 2) LPARC_ghostInsert)).b1 = [(2, 1)] ∧
    answers LPARC_X (LPARC_x0 2) (LPARC_ghostInsert ++ [.get ⟨2, 1, -2⟩]) = some [false, true, false, false, true, true, true] ∧
    (LPARC_view (after LPARC_X (LPARC_x0 2) (LPARC_ghostInsert ++ [.get ⟨2, 1, -2⟩]))).t1 = [⟨2, 1, 0⟩] ∧
    (LPARC_view (after LPARC_X (LPARC_x0 2) (LPARC_ghostInsert ++ [.get ⟨2, 1, -2⟩]))).b1 = [] := by
  refine ⟨?_, ?_, ?_, ?_, ?_⟩ <;> decide +kernel

/-! concrete cases -/

/-- in the demo run object 1 has a mark in T2 when object 2 is evicted; in the demo state there are objects on all four lists, and a miss evicts -/
example : (LPARC_view (after LPARC_X (LPARC_x0 5) (LPARC_ops.take 10))).t2 = [⟨1, 2, 1⟩, ⟨2, 1, 0⟩, ⟨3, 2, 0⟩] ∧
    (LPARC_view (after LPARC_X (LPARC_x0 5) (LPARC_ops.take 11))).t2 = [⟨3, 2, 0⟩, ⟨1, 2, 0⟩] ∧
    (LPARC_view (after LPARC_X (LPARC_x0 5) (LPARC_ops.take 11))).b2 = [(2, 1)] ∧
    0 < LazyARC.size (LPARC_view LPARC_demo).t2 ∧ (LPARC.toEvict LPARC_demo ⟨11, 3, -2⟩).isSome = true ∧
    (LPARC_cached (after LPARC_X LPARC_demo [.get ⟨11, 3, -2⟩])).length = 3 := by
  refine ⟨?_, ?_, ?_, ?_, ?_, ?_⟩ <;> decide +kernel

end Verif.Props
