import Verif.Proof.ARCv0Unit
import Verif.Props.ARC
/-!
# Properties of ARCv0 (libCacheSim/cache/eviction/ARCv0.c)

The statements are those of `Verif/Spec/Cache.lean`, `Verif/Spec/ARC.lean` and `Verif/Spec/ARCLru.lean`.  They hold for every arithmetic `R` on the target `p`, every
cache size, every admission policy and every sequence of `get`, `find` without update, `remove` and `insert` calls in which every object has one size (`Sized`), where
not stated otherwise.  The theorems named `_fails` show what goes wrong outside these bounds.  Object metadata is not considered.
-/

namespace Verif.Props
open Verif Verif.Spec Verif.Spec.Adaptive
set_option linter.unusedVariables false
set_option maxRecDepth 20000

/-- what ARCv0 has cached: the objects of T1 and T2 -/
abbrev ARCv0_cached {R : ARC.Arith} (s : ARCv0.State R) : Contents := ARCv0.cached s

/-- ids and sizes of the objects on each of the four lists, most recent first -/
abbrev ARCv0_lists {R : ARC.Arith} (s : ARCv0.State R) : Lists := ARCv0.lists s

/-- no `find` with update, no client evictions -/
abbrev noUpdateEvict : Perms := { upd := false, ev := false }

abbrev ARCv0_X : Algo (ARCv0.State ARC.Arith.exact) := ARCv0.algo ARC.Arith.exact
def ARCv0_x0 (cs : Nat) : ARCv0.State ARC.Arith.exact := ARCv0.init cs .none

/-- a demo run in exact arithmetic: hits in T1 and T2, evictions to B1 and B2, ghost hits, an object that is too large, a removal, an insertion -/
def ARCv0_ops : List Op := [.get ⟨1, 2, -2⟩, .get ⟨2, 1, -2⟩, .get ⟨1, 2, -2⟩, .get ⟨3, 2, -2⟩, .get ⟨2, 1, -2⟩, .find ⟨1, 2, -2⟩ false, .get ⟨4, 9, -2⟩,
  .get ⟨5, 1, -2⟩, .get ⟨6, 2, -2⟩, .get ⟨3, 2, -2⟩, .get ⟨7, 1, -2⟩, .get ⟨5, 1, -2⟩, .get ⟨9, 1, -2⟩, .get ⟨10, 1, -2⟩, .remove 9, .insert ⟨8, 1, -2⟩]

/-- the sizes of the objects in the demo run -/
def ARCv0_sz : ObjId → Nat := fun id => match id with | 1 => 2 | 3 => 2 | 4 => 9 | 6 => 2 | _ => 1

def ARCv0_demo : ARCv0.State ARC.Arith.exact := after ARCv0_X (ARCv0_x0 5) ARCv0_ops

theorem ARCv0_demo_reached : Reaches ARCv0_X (ARCv0_x0 5) ARCv0_ops [false, false, true, false, true, true, false, false, false, false, false, false, false, false, true, true] ARCv0_demo ∧
    ARCv0_lists ARCv0_demo .T1 = [(8, 1), (10, 1), (7, 1)] ∧ ARCv0_lists ARCv0_demo .T2 = [(5, 1)] ∧ ARCv0_lists ARCv0_demo .B1 = [(6, 2)] ∧ ARCv0_lists ARCv0_demo .B2 = [(3, 2), (2, 1)] :=
  ⟨reaches_after (by decide +kernel), by decide +kernel, by decide +kernel, by decide +kernel, by decide +kernel⟩

/-- the demo run of ARC, without its `find` with update -/
def ARCv0_arcOps : List Op := [.get ⟨1, 2, -2⟩, .get ⟨2, 1, -2⟩, .get ⟨1, 2, -2⟩, .get ⟨3, 2, -2⟩, .get ⟨2, 1, -2⟩, .get ⟨1, 2, -2⟩, .get ⟨4, 9, -2⟩,
  .get ⟨5, 1, -2⟩, .get ⟨3, 2, -2⟩, .get ⟨6, 1, -2⟩, .get ⟨7, 2, -2⟩]

theorem ARCv0_demo_calls : ∀ op ∈ ARCv0_ops, Calls noUpdateEvict (Sized 5 ARCv0_sz) op := by
  intro op hop
  simp only [ARCv0_ops, List.mem_cons, List.not_mem_nil, or_false] at hop
  rcases hop with rfl | rfl | rfl | rfl | rfl | rfl | rfl | rfl | rfl | rfl | rfl | rfl | rfl | rfl | rfl | rfl <;> simp [Calls, Sized, ARCv0_sz, u32]

section
variable (R : ARC.Arith) (sz : ObjId → Nat) (cs : Nat) (adm : Adm) (p : Perms) (hp : p.upd = false) (he : p.ev = false)
include hp he

theorem C01_capacity_ARCv0_partial : Capacity (ARCv0.algo R) (ARCv0.init cs adm) (Calls p (Sized cs sz)) cs :=
  (ARCv0.contract hp he).capacity (ARCv0.inv_init cs sz p adm)

theorem C02_accounting_ARCv0_partial : Accounting (ARCv0.algo R) ARCv0_cached (ARCv0.init cs adm) (Calls p (Sized cs sz)) 0 :=
  (ARCv0.contract hp he).accounting (ARCv0.inv_init cs sz p adm)

theorem C03_hitIffCached_ARCv0_partial : HitIffCached (ARCv0.algo R) ARCv0_cached (ARCv0.init cs adm) (Calls p (Sized cs sz)) :=
  (ARCv0.contract hp he).hitIffCached (ARCv0.inv_init cs sz p adm)

theorem C04_noPhantom_ARCv0_partial : NoPhantom (ARCv0.algo R) ARCv0_cached (ARCv0.init cs adm) (Calls p (Sized cs sz)) := by
  refine (ARCv0.contract hp he).noPhantom (ARCv0.inv_init cs sz p adm) rfl ?_
  intro _ s s' b id hi h
  obtain ⟨s1, k1, k2, _⟩ := ARCv0.Rep.remove_spec hi id
  rw [show (ARCv0.algo R).remove s id = ARCv0.remove s id from rfl, k1] at h
  injection h with h; injection h with _ h; subst h
  intro hm
  rcases (k2.mem id).1 hm with hm | hm
  · exact (ARCv0.ids_filter_ne.1 hm).2 rfl
  · exact (ARCv0.ids_filter_ne.1 hm).2 rfl

theorem C04_addsOnlyRequested_ARCv0_partial : AddsOnlyRequested (ARCv0.algo R) ARCv0_cached (ARCv0.init cs adm) (Calls p (Sized cs sz)) :=
  (ARCv0.contract hp he).addsOnlyRequested (ARCv0.inv_init cs sz p adm)

theorem C06_evictOnDemand_ARCv0_partial : EvictOnDemand (ARCv0.algo R) ARCv0_cached (ARCv0.init cs adm) (Calls p (Sized cs sz)) cs 0 :=
  ARCv0.evictOnDemand hp he adm

theorem C09_safe_ARCv0_partial : Safe (ARCv0.algo R) (ARCv0.init cs adm) (Calls p (Sized cs sz)) :=
  (ARCv0.contract hp he).safe (ARCv0.inv_init cs sz p adm)

theorem C07_removeExact_ARCv0_partial : RemoveExact (ARCv0.algo R) ARCv0_cached (ARCv0.init cs adm) (Calls p (Sized cs sz)) := by
  intro ops out s ho hr id
  have hi := (ARCv0.contract hp he).reach (ARCv0.inv_init cs sz p adm) ho hr
  obtain ⟨s', k1, k2, _⟩ := ARCv0.Rep.remove_spec hi id
  refine ⟨s', k1, ?_⟩
  refine k2.cached.trans ((ARCv0.Rep.cached hi).filter _ |>.trans ?_).symm
  rw [List.filter_append]; exact List.Perm.refl _

/-- C08: a request that is not admitted leaves T1 and T2 as they were; if the object is not a ghost, it also leaves B1, B2 and `p` alone. -/
theorem C08_rejectQuiet_ARCv0_partial (ops : List Op) (out : List Bool) (s : ARCv0.State R) (ho : ∀ op ∈ ops, Calls p (Sized cs sz) op)
    (hr : Reaches (ARCv0.algo R) (ARCv0.init cs adm) ops out s) (r : Req) (hok : Sized cs sz r) (hn : r.id ∉ (ARCv0_cached s).ids) (ha : admitsBase s.out r = false) :
    ∃ s', (ARCv0.algo R).get s r = .ok (false, s') ∧ ARCv0_lists s' .T1 = ARCv0_lists s .T1 ∧ ARCv0_lists s' .T2 = ARCv0_lists s .T2 ∧
      (r.id ∉ (ARCv0_lists s .B1).ids → r.id ∉ (ARCv0_lists s .B2).ids → ARCv0_lists s' = ARCv0_lists s ∧ s'.p = s.p) := by
  have hi := (ARCv0.contract hp he).reach (ARCv0.inv_init cs sz p adm) ho hr
  obtain ⟨s', h1, h2, h3⟩ := ARCv0.Rep.get_reject hi r hok hn ha
  refine ⟨s', h1, h2 .T1 (Or.inl rfl), h2 .T2 (Or.inr rfl), fun hb1 hb2 => ?_⟩
  have hn' : ∀ k, r.id ∉ (ARCv0.lists s k).ids := by
    intro k
    cases k with
    | T1 => exact fun hm => hn ((ARCv0.Rep.mem hi _).2 (Or.inl hm))
    | T2 => exact fun hm => hn ((ARCv0.Rep.mem hi _).2 (Or.inr hm))
    | B1 => exact hb1
    | B2 => exact hb2
  exact h3 hn'

/-- C05: the admission policy accepts the object, and it is not larger than the cache. -/
theorem C05_admittedMissCached_ARCv0_partial :
    AdmittedMissCached (ARCv0.algo R) ARCv0_cached (fun s r => admitsBase s.out r) (ARCv0.init cs adm) (Calls p (Sized cs sz)) := by
  intro ops out s ho hr r hok hnc ha
  have hi := (ARCv0.contract hp he).reach (ARCv0.inv_init cs sz p adm) ho hr
  obtain ⟨s', h1, h2⟩ := ARCv0.Rep.get_admit hi r hok hnc ha
  exact ⟨s', h1, h2⟩

/-! ## C10, C81 -/

/-- What is proved of C10: with a request that is not empty and fits into the cache, if T2 holds any bytes, `to_evict` names the object that `evict` evicts. -/
theorem C10_toEvictPredicts_ARCv0_partial (ops : List Op) (out : List Bool) (s : ARCv0.State R) (ho : ∀ op ∈ ops, Calls p (Sized cs sz) op)
    (hr : Reaches (ARCv0.algo R) (ARCv0.init cs adm) ops out s) (r : Req) (h0 : 0 < r.size) (hle : r.size ≤ cs) (hb : 0 < bytes 0 (ARCv0_lists s .T2)) :
    ∃ id n s', ARCv0.toEvict s r = some id ∧ (ARCv0.algo R).evict s r = .ok s' ∧ (ARCv0_cached s).Perm ((id, n) :: ARCv0_cached s') := by
  have hi := (ARCv0.contract hp he).reach (ARCv0.inv_init cs sz p adm) ho hr
  rw [bytes_eq_charge] at hb
  obtain ⟨s', a', x, h1, h2, _, _, h3, h4⟩ := ARCv0.Rep.evict_spec hi r (by have : 0 < charge 0 (ARCv0.lists s .T2) := hb; omega) h0 hle
  exact ⟨x.1, x.2, s', h4 hb, h1, (ARCv0.Rep.cached hi).trans (h3.trans (h2.cached.symm.cons x))⟩

/-- C81: the cached objects are those on T1 or T2, each on one of them once. -/
theorem C81_cached_ARCv0_partial (ops : List Op) (out : List Bool) (s : ARCv0.State R) (ho : ∀ op ∈ ops, Calls p (Sized cs sz) op)
    (hr : Reaches (ARCv0.algo R) (ARCv0.init cs adm) ops out s) :
    (ARCv0_cached s).Perm (ARCv0_lists s .T1 ++ ARCv0_lists s .T2) ∧ (∀ k, (ARCv0_lists s k).ids.Nodup) ∧
      (∀ id, id ∈ (ARCv0_lists s .T1).ids → id ∉ (ARCv0_lists s .T2).ids) := by
  have hi := (ARCv0.contract hp he).reach (ARCv0.inv_init cs sz p adm) ho hr
  refine ⟨ARCv0.Rep.cached hi, fun k => ?_, hi.one⟩
  cases k with
  | T1 => exact hi.t1.nodup
  | T2 => exact hi.t2.nodup
  | B1 => exact hi.b1.nodup
  | B2 => exact hi.b2.nodup

/-- C81: without client inserts every object is on at most one of the four lists. -/
theorem C81_oneList_ARCv0_partial (hins : p.ins = false) (ops : List Op) (out : List Bool) (s : ARCv0.State R) (ho : ∀ op ∈ ops, Calls p (Sized cs sz) op)
    (hr : Reaches (ARCv0.algo R) (ARCv0.init cs adm) ops out s) (j k : Lst) (id : ObjId) (hj : id ∈ (ARCv0_lists s j).ids) (hk : id ∈ (ARCv0_lists s k).ids) : j = k :=
  ((ARCv0.contract hp he).reach (ARCv0.inv_init cs sz p adm) ho hr).apart hins j k id hj hk

/-- C81: T1 and T2 together hold at most `cs` bytes, and so does each ghost list. -/
theorem C81_bytes_ARCv0_partial (ops : List Op) (out : List Bool) (s : ARCv0.State R) (ho : ∀ op ∈ ops, Calls p (Sized cs sz) op)
    (hr : Reaches (ARCv0.algo R) (ARCv0.init cs adm) ops out s) :
    bytes 0 (ARCv0_lists s .T1) + bytes 0 (ARCv0_lists s .T2) ≤ cs ∧ bytes 0 (ARCv0_lists s .B1) ≤ cs ∧ bytes 0 (ARCv0_lists s .B2) ≤ cs := by
  have hi := (ARCv0.contract hp he).reach (ARCv0.inv_init cs sz p adm) ho hr
  simp only [bytes_eq_charge]
  exact ⟨hi.cap, hi.b1.le, hi.b2.le⟩

/-- C81, a hit, without client inserts: the object becomes the most recent one of T2, nothing else changes. -/
theorem C81_hit_ARCv0_partial (hins : p.ins = false) (ops : List Op) (out : List Bool) (s : ARCv0.State R) (ho : ∀ op ∈ ops, Calls p (Sized cs sz) op)
    (hr : Reaches (ARCv0.algo R) (ARCv0.init cs adm) ops out s) (k : Lst) (hk : k = .T1 ∨ k = .T2) (x : ObjId × Nat) (hx : x ∈ ARCv0_lists s k) (r : Req) (hxe : r.id = x.1)
    (hok : Sized cs sz r) : ∃ s', (ARCv0.algo R).get s r = .ok (true, s') ∧ ARCv0_lists s' = hit (ARCv0_lists s) k x ∧ s'.p = s.p := by
  have hi := (ARCv0.contract hp he).reach (ARCv0.inv_init cs sz p adm) ho hr
  obtain ⟨s', h1, h2, h3, _⟩ := ARCv0.Rep.get_hit hi hins r hok hk hx hxe
  exact ⟨s', h1, h2.lists, h3⟩

/-- C81, an object that is a ghost, without client inserts: the answer is a miss, the ghost is forgotten and `p` is adapted.  If the object is admitted, REPLACE evicts
until it fits, and the object becomes the most recent one of T2. -/
theorem C81_ghostHit_ARCv0_partial (hins : p.ins = false) (ops : List Op) (out : List Bool) (s : ARCv0.State R) (ho : ∀ op ∈ ops, Calls p (Sized cs sz) op)
    (hr : Reaches (ARCv0.algo R) (ARCv0.init cs adm) ops out s) (k : Lst) (hk : k = .B1 ∨ k = .B2) (x : ObjId × Nat) (hx : x ∈ ARCv0_lists s k) (r : Req) (hxe : r.id = x.1)
    (hok : Sized cs sz r) :
    ∃ s', (ARCv0.algo R).get s r = .ok (false, s') ∧
      s'.p = (if k = .B1 then R.up s.p (bytes 0 (ARCv0_lists s .B2) : Nat) (bytes 0 (ARCv0_lists s .B1) : Nat) cs
        else R.down s.p (bytes 0 (ARCv0_lists s .B1) : Nat) (bytes 0 (ARCv0_lists s .B2) : Nat)) ∧
      (admitsBase s.out r = false → ARCv0_lists s' = drop (ARCv0_lists s) k x) ∧
      (admitsBase s.out r = true → ∃ victims a, EvictsAll (ReplacesLru cs (fun n => R.gt n s'.p) (fun n => R.eq n s'.p) (decide (k = .B2))) (drop (ARCv0_lists s) k x) victims a ∧
        ARCv0_lists s' = push a .T2 (r.id, r.size)) := by
  have hi := (ARCv0.contract hp he).reach (ARCv0.inv_init cs sz p adm) ho hr
  obtain ⟨s', h1, h2, h3, h4⟩ := ARCv0.Rep.get_ghost hi hins r hok hk (by rw [hxe]; exact List.mem_map_of_mem hx)
  have hd : drop (ARCv0_lists s) k x = put (ARCv0_lists s) k (without r.id (ARCv0_lists s k)) := by unfold drop; rw [hxe]
  simp only [bytes_eq_charge, hd]
  refine ⟨s', h1, h2, fun ha => (h3 ha).1.lists, fun ha => ?_⟩
  obtain ⟨vs, a', k1, k2, _⟩ := h4 ha
  exact ⟨vs, a', k1, k2.lists⟩

/-- C81, an object on no list that is admitted: evictions until it fits, then it becomes the most recent object of T1.  The flag `curr_obj_in_L2_ghost` of the state
takes part in the choice; see `C81_flags_ARCv0_partial` and `C81_staleFlag_fails_ARCv0`. -/
theorem C81_miss_ARCv0_partial (ops : List Op) (out : List Bool) (s : ARCv0.State R) (ho : ∀ op ∈ ops, Calls p (Sized cs sz) op)
    (hr : Reaches (ARCv0.algo R) (ARCv0.init cs adm) ops out s) (r : Req) (hok : Sized cs sz r) (hn : ∀ k, r.id ∉ (ARCv0_lists s k).ids) (ha : admitsBase s.out r = true) :
    ∃ s' victims a, (ARCv0.algo R).get s r = .ok (false, s') ∧
      EvictsAll (MissEvictsLru cs r.size (fun n => R.gt n s.p) (fun n => R.eq n s.p) s.inB2) (ARCv0_lists s) victims a ∧
      ARCv0_lists s' = push a .T1 (r.id, r.size) ∧ s'.p = s.p := by
  have hi := (ARCv0.contract hp he).reach (ARCv0.inv_init cs sz p adm) ho hr
  obtain ⟨s', h1, h2, _, _, _, _, h3⟩ := ARCv0.Rep.get_none hi (ARCv0.reach_vtime hp he adm ho hr) r hok hn
  obtain ⟨vs, a', k1, k2, _⟩ := h3 ha
  exact ⟨s', vs, a', h1, k1, k2.lists, h2⟩

/-- C81: `evict` called by the client, with a request that is not empty and fits, on a cache that holds any bytes: one eviction as for an object on no list, or, right after
a ghost hit that was not followed by an insertion, by REPLACE. -/
theorem C81_victim_ARCv0_partial (ops : List Op) (out : List Bool) (s : ARCv0.State R) (ho : ∀ op ∈ ops, Calls p (Sized cs sz) op)
    (hr : Reaches (ARCv0.algo R) (ARCv0.init cs adm) ops out s) (r : Req) (h0 : 0 < r.size) (hle : r.size ≤ cs) (hb : 0 < bytes 0 (ARCv0_cached s)) :
    ∃ s' x, (ARCv0.algo R).evict s r = .ok s' ∧ (ARCv0_cached s).Perm (x :: ARCv0_cached s') ∧
      (if s.vtime = s.out.nReq ∧ (s.inB1 = true ∨ s.inB2 = true) then ReplacesLru cs (fun n => R.gt n s.p) (fun n => R.eq n s.p) s.inB2 (ARCv0_lists s) x (ARCv0_lists s')
       else MissEvictsLru cs r.size (fun n => R.gt n s.p) (fun n => R.eq n s.p) s.inB2 (ARCv0_lists s) x (ARCv0_lists s')) := by
  have hi := (ARCv0.contract hp he).reach (ARCv0.inv_init cs sz p adm) ho hr
  rw [bytes_eq_charge, ARCv0.Rep.total hi] at hb
  obtain ⟨s', a', x, h1, h2, h3, _, h4, _⟩ := ARCv0.Rep.evict_spec hi r hb h0 hle
  refine ⟨s', x, h1, (ARCv0.Rep.cached hi).trans (h4.trans (h2.cached.symm.cons x)), ?_⟩
  have e : (s.vtime = s.out.nReq ∧ (s.inB1 = true ∨ s.inB2 = true)) ↔ ARCv0.afterGhostHit s = true := by
    simp [ARCv0.afterGhostHit]
  rw [show ARCv0_lists s' = a' from h2.lists]
  unfold ARCv0.Rule at h3
  simp only [e]
  split at h3
  · next hh => rw [if_pos hh]; exact h3
  · next hh => rw [if_neg hh]; exact h3

end

/-- C81: if every request is a `get` of an object that fits and there is no admission policy, the ghost flags are down between requests, so an eviction for an object
on no list is that of the paper. -/
theorem C81_flags_ARCv0_partial (R : ARC.Arith) (sz : ObjId → Nat) (cs : Nat) (ops : List Op) (out : List Bool) (s : ARCv0.State R)
    (ho : ∀ op ∈ ops, ∃ r : Req, op = .get r ∧ r.size = sz r.id ∧ r.size ≤ cs ∧ r.size < u32) (hr : Reaches (ARCv0.algo R) (ARCv0.init cs .none) ops out s) :
    s.inB1 = false ∧ s.inB2 = false := by
  have := run_inv (A := ARCv0.algo R) (okOp := ARCv0.Admitted cs sz)
    (P := fun s => ARCv0.Inv cs sz ARCv0.gets s ∧ s.out.adm = .none ∧ s.vtime ≤ (s.out.nReq : Int) ∧ s.inB1 = false ∧ s.inB2 = false)
    (fun hop h hs => ARCv0.flags_step rfl hop h hs) ⟨ARCv0.inv_init cs sz _ .none, rfl, (by show (-1 : Int) ≤ ((0 : Nat) : Int); omega), rfl, rfl⟩ ho hr
  exact this.2.2.2

/-- C81: in exact arithmetic the target stays between 0 and the cache size. -/
theorem C81_target_ARCv0_partial (sz : ObjId → Nat) (cs : Nat) (adm : Adm) (p : Perms) (hp : p.upd = false) (he : p.ev = false) (ops : List Op) (out : List Bool)
    (s : ARCv0.State ARC.Arith.exact) (ho : ∀ op ∈ ops, Calls p (Sized cs sz) op) (hr : Reaches ARCv0_X (ARCv0.init cs adm) ops out s) :
    (0 : Rat) ≤ (id s.p : Rat) ∧ (id s.p : Rat) ≤ (cs : Rat) := ARCv0.reach_target hp he adm ho hr

/-- C81: on objects of one byte ARCv0 and ARC give the same answers and hold the same lists, with the same target: for every arithmetic, cache size, admission policy and
sequence of `get`s. -/
theorem C81_sameAsARC_ARCv0_partial (R : ARC.Arith) (cs : Nat) (adm : Adm) (reqs : List Req) (hu : ∀ r ∈ reqs, r.size = 1) :
    ∃ out s t, Reaches (ARC.algo R) (ARC.init cs 0 adm) (reqs.map .get) out s ∧ Reaches (ARCv0.algo R) (ARCv0.init cs adm) (reqs.map .get) out t ∧
      ARCv0_lists t = ARC_lists s ∧ t.p = s.p := by
  obtain ⟨out, s, t, h1, h2, h3⟩ := ARCv0.agree_run (ARCv0.agree_init (R := R) cs adm) reqs hu
  exact ⟨out, s, t, h1, h2, h3.v0.lists, h3.p⟩

/-! ## What goes wrong -/

/-- C01 fails when an object of T1 is requested with another size: 7 bytes are cached in a cache of 4. -/
theorem C01_capacity_fails_ARCv0 : ∃ s, Reaches ARCv0_X (ARCv0_x0 4) [.get ⟨1, 1, -2⟩, .get ⟨2, 3, -2⟩, .get ⟨1, 4, -2⟩] [false, false, true] s ∧
    bytes 0 (ARCv0_cached s) = 7 ∧ ARCv0_X.occ s = 7 :=
  ⟨after ARCv0_X (ARCv0_x0 4) [.get ⟨1, 1, -2⟩, .get ⟨2, 3, -2⟩, .get ⟨1, 4, -2⟩], reaches_after (by decide +kernel), by decide +kernel, by decide +kernel⟩

/-- C06 fails when an object of T1 is requested with a size larger than the cache: the answer is a hit, and the object is gone afterwards. -/
theorem C06_evictOnDemand_fails_ARCv0 : ∃ s, Reaches ARCv0_X (ARCv0_x0 4) [.get ⟨1, 1, -2⟩, .get ⟨2, 3, -2⟩, .get ⟨1, 5, -2⟩] [false, false, true] s ∧
    ARCv0_cached s = [(2, 3)] :=
  ⟨after ARCv0_X (ARCv0_x0 4) [.get ⟨1, 1, -2⟩, .get ⟨2, 3, -2⟩, .get ⟨1, 5, -2⟩], reaches_after (by decide +kernel), by decide +kernel⟩

/-- C09 fails for a client's eviction call with a request larger than the cache: the object is taken from the empty list T1 (NULL pointer). -/
theorem C09_safe_fails_ARCv0_evictLarge : faultOf ARCv0_X (ARCv0_x0 2) [.get ⟨1, 1, -2⟩, .get ⟨1, 1, -2⟩, .evict ⟨2, 5, -2⟩] = some .nullDeref := by decide +kernel

/-- C09 fails for a client's eviction call when T2 holds an empty object and T1 nothing. -/
theorem C09_safe_fails_ARCv0_evictEmpty : faultOf ARCv0_X (ARCv0_x0 2) [.get ⟨1, 0, -2⟩, .get ⟨1, 0, -2⟩, .evict ⟨2, 1, -2⟩] = some .nullDeref := by decide +kernel

/-- C09 fails for a client's eviction call with an empty request: T2 and B1 hold `cs` bytes each, and the loop that shrinks B2 finds B2 empty (NULL pointer). -/
theorem C09_safe_fails_ARCv0_evictZero : faultOf ARCv0_X (ARCv0_x0 2) [.get ⟨2, 1, -2⟩, .get ⟨2, 1, -2⟩, .get ⟨4, 1, -2⟩, .get ⟨3, 1, -2⟩, .get ⟨3, 1, -2⟩, .get ⟨6, 1, -2⟩,
    .get ⟨2, 1, -2⟩, .evict ⟨9, 0, -2⟩] = some .nullDeref := by decide +kernel

/-- a run after which T1 holds one object, within the target, T2 none and B1 one ghost -/
def ARCv0_noT2 : List Op := [.get ⟨4, 1, -2⟩, .get ⟨1, 1, -2⟩, .get ⟨5, 1, -2⟩, .get ⟨1, 1, -2⟩, .get ⟨3, 1, -2⟩, .get ⟨4, 1, -2⟩, .remove 4, .remove 1]

/-- C10 fails when T2 holds no bytes and T1 is within its target: `to_evict` asks T2 and names no object, and `evict` evicts object 3 of T1. -/
theorem C10_toEvictPredicts_fails_ARCv0 : Reaches ARCv0_X (ARCv0_x0 3) ARCv0_noT2 [false, false, false, true, false, false, true, true] (after ARCv0_X (ARCv0_x0 3) ARCv0_noT2) ∧
    ARCv0.toEvict (after ARCv0_X (ARCv0_x0 3) ARCv0_noT2) ⟨8, 1, -2⟩ = none ∧ ARCv0_cached (after ARCv0_X (ARCv0_x0 3) ARCv0_noT2) = [(3, 1)] ∧
    ARCv0_cached (after ARCv0_X (ARCv0_x0 3) (ARCv0_noT2 ++ [.evict ⟨8, 1, -2⟩])) = [] :=
  ⟨reaches_after (by decide +kernel), by decide +kernel, by decide +kernel, by decide +kernel⟩

/-- C08 fails for ghosts: a request for object 3 that is too large to be admitted makes ARCv0 forget the ghost 3. -/
theorem C08_rejectQuiet_fails_ARCv0 : ARCv0_lists (after ARCv0_X ARCv0_demo [.get ⟨3, 9, -2⟩]) .B2 = [(2, 1)] ∧ ARCv0_lists ARCv0_demo .B2 = [(3, 2), (2, 1)] ∧
    answers ARCv0_X ARCv0_demo [.get ⟨3, 9, -2⟩] = some [false] ∧ admitsBase ARCv0_demo.out ⟨3, 9, -2⟩ = false := by
  refine ⟨?_, ?_, ?_, ?_⟩ <;> decide +kernel

/-- C81, case IV, is not that of the paper after a rejected ghost hit: as for ARC (`C24_staleFlag_fails_ARC`), the flag that the last request hit B2 is still set when
object 2, which is on no list, is requested.  T1 holds exactly `p` bytes, so the paper takes the victim from T2; ARCv0 evicts object 6 from T1. -/
theorem C81_staleFlag_fails_ARCv0 : Reaches ARCv0_X (ARCv0_x0 3) ARC_stale [false, false, false, true, false, false, false, true, false] (after ARCv0_X (ARCv0_x0 3) ARC_stale) ∧
    ARCv0_lists (after ARCv0_X (ARCv0_x0 3) ARC_stale) .T1 = [(6, 1)] ∧ ARCv0_lists (after ARCv0_X (ARCv0_x0 3) ARC_stale) .T2 = [(3, 1), (0, 1)] ∧
    ARC.Arith.exact.gt 1 (after ARCv0_X (ARCv0_x0 3) ARC_stale).p = false ∧
    ARCv0_lists (after ARCv0_X (ARCv0_x0 3) (ARC_stale ++ [.get ⟨2, 1, -2⟩])) .T1 = [(2, 1)] ∧
    ARCv0_lists (after ARCv0_X (ARCv0_x0 3) (ARC_stale ++ [.get ⟨2, 1, -2⟩])) .T2 = [(3, 1), (0, 1)] :=
  ⟨reaches_after (by decide +kernel), by decide +kernel, by decide +kernel, by decide +kernel, by decide +kernel, by decide +kernel⟩

/-- C81: with client inserts an object can be cached and a ghost at the same time.  The next request for it is answered as a hit, forgets the ghost, moves the target and
does not move the object to T2. -/
theorem C81_oneList_fails_ARCv0 :
    ARCv0_lists (after ARCv0_X (ARCv0_x0 2) [.get ⟨1, 1, -2⟩, .get ⟨1, 1, -2⟩, .get ⟨2, 1, -2⟩, .get ⟨3, 1, -2⟩, .remove 3, .insert ⟨2, 1, -2⟩]) .T1 = [(2, 1)] ∧
    ARCv0_lists (after ARCv0_X (ARCv0_x0 2) [.get ⟨1, 1, -2⟩, .get ⟨1, 1, -2⟩, .get ⟨2, 1, -2⟩, .get ⟨3, 1, -2⟩, .remove 3, .insert ⟨2, 1, -2⟩]) .B1 = [(2, 1)] ∧
    answers ARCv0_X (ARCv0_x0 2) [.get ⟨1, 1, -2⟩, .get ⟨1, 1, -2⟩, .get ⟨2, 1, -2⟩, .get ⟨3, 1, -2⟩, .remove 3, .insert ⟨2, 1, -2⟩, .get ⟨2, 1, -2⟩] =
      some [false, true, false, false, true, true, true] ∧
    ARCv0_lists (after ARCv0_X (ARCv0_x0 2) [.get ⟨1, 1, -2⟩, .get ⟨1, 1, -2⟩, .get ⟨2, 1, -2⟩, .get ⟨3, 1, -2⟩, .remove 3, .insert ⟨2, 1, -2⟩, .get ⟨2, 1, -2⟩]) .T1 = [(2, 1)] ∧
    ARCv0_lists (after ARCv0_X (ARCv0_x0 2) [.get ⟨1, 1, -2⟩, .get ⟨1, 1, -2⟩, .get ⟨2, 1, -2⟩, .get ⟨3, 1, -2⟩, .remove 3, .insert ⟨2, 1, -2⟩, .get ⟨2, 1, -2⟩]) .B1 = [] := by
  refine ⟨?_, ?_, ?_, ?_, ?_⟩ <;> decide +kernel

/-- C81: `ARCv0` and `ARC` differ on objects of several sizes: after the demo run of ARC, ARC remembers the ghosts 3, 1 and 2 (5 bytes), ARCv0, whose ghost lists are LRU
caches of 4 bytes, only 3 and 1. -/
theorem C81_sameAsARC_fails_ARCv0 : ∃ s t, Reaches ARC_X (ARC_x0 4) ARCv0_arcOps [false, false, true, false, false, true, false, false, false, false, false] s ∧
    Reaches ARCv0_X (ARCv0_x0 4) ARCv0_arcOps [false, false, true, false, false, true, false, false, false, false, false] t ∧
    ARC_lists s .B2 = [(3, 2), (1, 2), (2, 1)] ∧ ARCv0_lists t .B2 = [(3, 2), (1, 2)] :=
  ⟨after ARC_X (ARC_x0 4) ARCv0_arcOps, after ARCv0_X (ARCv0_x0 4) ARCv0_arcOps, reaches_after (by decide +kernel), reaches_after (by decide +kernel), by decide +kernel, by decide +kernel⟩

/-! concrete cases of the C81 theorems -/

/-- a hit in T1, ghost hits in B1 and B2 and a complete miss in the demo state -/
example : (10, 1) ∈ ARCv0_lists ARCv0_demo .T1 ∧ (6, 2) ∈ ARCv0_lists ARCv0_demo .B1 ∧ (3, 2) ∈ ARCv0_lists ARCv0_demo .B2 ∧ admitsBase ARCv0_demo.out ⟨6, 2, -2⟩ = true ∧
    0 < bytes 0 (ARCv0_lists ARCv0_demo .T2) ∧ (ARCv0.toEvict ARCv0_demo ⟨11, 3, -2⟩).isSome = true ∧
    (ARCv0_cached (after ARCv0_X ARCv0_demo [.get ⟨11, 3, -2⟩])).length = 3 := by
  refine ⟨?_, ?_, ?_, ?_, ?_, ?_, ?_⟩ <;> decide +kernel

end Verif.Props
