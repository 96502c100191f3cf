import Verif.Proof.SFIFOv0
import Verif.Props.Demo
/-!
# Properties of SFIFOv0 (libCacheSim/cache/eviction/fifo/SFIFOv0.c)

The statements are those of `Verif/Spec/Cache.lean` and `Verif/Spec/Segments.lean`.  They hold for every cache size `cs`, every number `n ≥ 1` of
queues (of `cs / n` bytes each), every admission policy and every sequence of the client calls `get`, `remove` and `evict`, for the requests described by
`Segmented.Steady`, if there are at most two queues or all objects have the same size.  The theorems named `_fails` show what goes wrong outside these
bounds.
-/

namespace Verif.Props
open Verif Verif.Spec Verif.Spec.Segmented
set_option linter.unusedVariables false
set_option maxRecDepth 20000

/-- what SFIFOv0 has cached: the objects in the hash tables of its queues -/
abbrev SFIFOv0_cached (s : SFIFOv0.State) : Contents := SFIFOv0.cached s

/-- ids and sizes of the objects in each queue, most recent first -/
abbrev SFIFOv0_segs (s : SFIFOv0.State) : Segs := SFIFOv0.segs s

/-- `get`, `remove` and `evict` only -/
abbrev noFind : Perms := { upd := false, peek := false, ins := false }

/-- a demo run on two queues of 6 bytes: insertion into both queues, a promotion with a demotion, a hit in the top queue, evictions,
a removal, a client eviction -/
def SFIFOv0_ops : List Op := [.get ⟨1, 3, -2⟩, .get ⟨2, 3, -2⟩, .get ⟨3, 3, -2⟩, .get ⟨4, 2, -2⟩, .get ⟨2, 3, -2⟩,
  .get ⟨2, 3, -2⟩, .get ⟨3, 3, -2⟩, .get ⟨5, 6, -2⟩, .remove 5, .get ⟨6, 1, -2⟩, .get ⟨9, 3, -2⟩, .evict ⟨7, 1, -2⟩, .get ⟨8, 2, -2⟩]

/-- the sizes of the objects in the demo run -/
def SFIFOv0_sz : ObjId → Nat := fun id => match id with | 4 => 2 | 5 => 6 | 6 => 1 | 8 => 2 | 10 => 7 | _ => 3

def SFIFOv0_demo0 : SFIFOv0.State := SFIFOv0.init 12 .none 2
def SFIFOv0_demo : SFIFOv0.State := after SFIFOv0.algo SFIFOv0_demo0 SFIFOv0_ops

theorem SFIFOv0_demo_reached : Reaches SFIFOv0.algo SFIFOv0_demo0 SFIFOv0_ops
      [false, false, false, false, true, true, true, false, true, false, false, true, false] SFIFOv0_demo ∧
    SFIFOv0_segs SFIFOv0_demo 0 = [(8, 2), (9, 3)] ∧ SFIFOv0_segs SFIFOv0_demo 1 = [(3, 3), (2, 3)] := ⟨reaches_after (by decide +kernel), by decide +kernel, by decide +kernel⟩

/-- the calls of the demo run are among those considered -/
example : (∀ op ∈ SFIFOv0_ops, Calls noFind (Steady SFIFOv0_sz (12 / 2) 0 noFind) op) ∧ (2 ≤ 2 ∨ ∃ c, ∀ id, SFIFOv0_sz id = c) := by
  refine ⟨?_, .inl (by omega)⟩
  intro op hop
  simp only [SFIFOv0_ops, List.mem_cons, List.not_mem_nil, or_false] at hop
  rcases hop with rfl | rfl | rfl | rfl | rfl | rfl | rfl | rfl | rfl | rfl | rfl | rfl | rfl <;> simp [Calls, Steady, SFIFOv0_sz]

/-- a second demo run, on four queues with objects of one size -/
def SFIFOv0_opsSame : List Op := [.get ⟨1, 2, -2⟩, .get ⟨2, 2, -2⟩, .get ⟨3, 2, -2⟩, .get ⟨4, 2, -2⟩, .get ⟨3, 2, -2⟩, .get ⟨2, 2, -2⟩, .get ⟨1, 2, -2⟩, .get ⟨5, 2, -2⟩]

example : (∀ op ∈ SFIFOv0_opsSame, Calls noFind (Steady (fun _ => 2) (8 / 4) 0 noFind) op) ∧ (4 ≤ 2 ∨ ∃ c, ∀ id : ObjId, (fun _ => 2) id = c) ∧
    SFIFOv0_segs (after SFIFOv0.algo (SFIFOv0.init 8 .none 4) SFIFOv0_opsSame) 3 = [(3, 2)] ∧
    SFIFOv0_segs (after SFIFOv0.algo (SFIFOv0.init 8 .none 4) SFIFOv0_opsSame) 2 = [(2, 2)] := by
  refine ⟨?_, .inr ⟨2, fun _ => rfl⟩, by decide +kernel, by decide +kernel⟩
  intro op hop
  simp only [SFIFOv0_opsSame, List.mem_cons, List.not_mem_nil, or_false] at hop
  rcases hop with rfl | rfl | rfl | rfl | rfl | rfl | rfl | rfl <;> simp [Calls, Steady]

section
variable (sz : ObjId → Nat) (cs n : Nat) (adm : Adm) (p : Perms) (hn : 1 ≤ n) (hsim : n ≤ 2 ∨ ∃ c, ∀ id, sz id = c)
  (hp : p.upd = false) (hpk : p.peek = false) (hpi : p.ins = false)
include hn hsim hp hpk hpi

theorem C01_capacity_SFIFOv0_partial : Capacity SFIFOv0.algo (SFIFOv0.init cs adm n) (Calls p (Steady sz (cs / n) 0 p)) cs :=
  (SFIFOv0.contract hn hsim hp hpk hpi).capacity (SFIFOv0.inv_init sz cs n p adm)

theorem C02_accounting_SFIFOv0_partial : Accounting SFIFOv0.algo SFIFOv0_cached (SFIFOv0.init cs adm n) (Calls p (Steady sz (cs / n) 0 p)) 0 :=
  (SFIFOv0.contract hn hsim hp hpk hpi).accounting (SFIFOv0.inv_init sz cs n p adm)

theorem C03_hitIffCached_SFIFOv0_partial : HitIffCached SFIFOv0.algo SFIFOv0_cached (SFIFOv0.init cs adm n) (Calls p (Steady sz (cs / n) 0 p)) :=
  (SFIFOv0.contract hn hsim hp hpk hpi).hitIffCached (SFIFOv0.inv_init sz cs n p adm)

theorem C04_noPhantom_SFIFOv0_partial : NoPhantom SFIFOv0.algo SFIFOv0_cached (SFIFOv0.init cs adm n) (Calls p (Steady sz (cs / n) 0 p)) := by
  refine (SFIFOv0.contract hn hsim hp hpk hpi).noPhantom (SFIFOv0.inv_init sz cs n p adm) (SFIFOv0.cached_init cs n adm) ?_
  rintro _ s s' b id ⟨a, h, hs⟩ hr
  obtain ⟨s2, a2, h1, h2, _, h3⟩ := h.remove id
  have hr' : SFIFOv0.remove s id = .ok (b, s') := hr
  rw [h1] at hr'
  injection hr' with hr'
  injection hr' with _ hr'
  subst hr'
  intro hm
  have := ((h.remove_perm h2 h3).map Prod.fst).mem_iff.1 hm
  simp at this

theorem C04_addsOnlyRequested_SFIFOv0_partial :
    AddsOnlyRequested SFIFOv0.algo SFIFOv0_cached (SFIFOv0.init cs adm n) (Calls p (Steady sz (cs / n) 0 p)) :=
  (SFIFOv0.contract hn hsim hp hpk hpi).addsOnlyRequested (SFIFOv0.inv_init sz cs n p adm)

/-- C05: the admission policy accepts the object, and it is not larger than the cache or a queue. -/
theorem C05_admittedMissCached_SFIFOv0_partial :
    AdmittedMissCached SFIFOv0.algo SFIFOv0_cached (fun s r => admitsBase s.base r && decide (r.size ≤ cs / n)) (SFIFOv0.init cs adm n)
      (Calls p (Steady sz (cs / n) 0 p)) := by
  intro ops out s ho hr r hok hnc ha
  have hi := (SFIFOv0.contract hn hsim hp hpk hpi).reach (SFIFOv0.inv_init sz cs n p adm) ho hr
  have hL : r.size + 0 ≤ cs / n := by
    simp only [Bool.and_eq_true, decide_eq_true_eq] at ha; exact ha.2
  have hu := SLRUv0.Steady.u32 hok hL
  obtain ⟨s', vs, a1, k, h1, _, _, _, h5⟩ := SFIFOv0.get_admitted hn hi hok hnc ha
  exact ⟨s', h1, by rw [Nat.mod_eq_of_lt (by omega)]; exact h5⟩

/-- What is proved of C06: a miss evicts a list of victims, keeps everything else, and with the last victim put back the new object would not have
fitted. -/
theorem C06_evictOnDemand_SFIFOv0_partial (ops : List Op) (out : List Bool) (s : SFIFOv0.State) (ho : ∀ op ∈ ops, Calls p (Steady sz (cs / n) 0 p) op)
    (hr : Reaches SFIFOv0.algo (SFIFOv0.init cs adm n) ops out s) (r : Req) (s' : SFIFOv0.State) (hok : Steady sz (cs / n) 0 p r)
    (hg : SFIFOv0.algo.get s r = .ok (false, s')) :
    ∃ victims kept, (SFIFOv0_cached s).Perm (victims ++ kept) ∧ ((SFIFOv0_cached s').Perm kept ∨ (SFIFOv0_cached s').Perm ((r.id, r.size % u32) :: kept)) ∧
      ∀ vs v, victims = vs ++ [v] → bytes 0 (v :: kept) + r.size > cs := by
  have C := SFIFOv0.oneByOne (cs := cs) hn hsim hp hpk hpi
  have hi := C.toContract.reach (SFIFOv0.inv_init sz cs n p adm) ho hr
  have hnc : r.id ∉ (SFIFOv0_cached s).ids := by
    obtain ⟨s2, h2, _⟩ := C.toContract.get r hok hi
    rw [hg] at h2
    injection h2 with h2
    injection h2 with h2
    exact of_decide_eq_false h2.symm
  obtain ⟨s1, h1, hi1, h2⟩ := C.miss r hok hi hnc
  rcases h2 with ⟨_, h3, h4⟩ | ⟨_, s3, s4, vs, h3, hi3, hrd, hn3, hme, hins, _, _, hp', hlast⟩
  · rw [h3] at hg
    cases hg
    exact ⟨[], SFIFOv0_cached s, List.Perm.refl _, .inl h4, by simp⟩
  · rw [h3] at hg
    cases hg
    obtain ⟨s5, g1, g2⟩ := SFIFOv0.insert_perm hn hi3 hok hrd hn3 hme
    rw [show SFIFOv0.algo.insert s3 r = SFIFOv0.insert s3 r from rfl, g1] at hins
    cases hins
    refine ⟨vs, SFIFOv0_cached s3, hp', .inr g2, fun us v huv => ?_⟩
    rw [bytes_eq_charge]
    have := hlast us v huv
    omega

theorem C07_removeExact_SFIFOv0_partial : RemoveExact SFIFOv0.algo SFIFOv0_cached (SFIFOv0.init cs adm n) (Calls p (Steady sz (cs / n) 0 p)) := by
  intro ops out s ho hr id
  obtain ⟨a, h, _⟩ := (SFIFOv0.contract hn hsim hp hpk hpi).reach (SFIFOv0.inv_init sz cs n p adm) ho hr
  obtain ⟨s', a', h1, h2, _, h3⟩ := h.remove id
  exact ⟨s', h1, h.remove_perm h2 h3⟩

theorem C08_rejectQuiet_SFIFOv0_partial :
    RejectQuiet SFIFOv0.algo SFIFOv0_cached (fun s r => admitsBase s.base r && decide (r.size ≤ cs / n)) (fun s => (s.n, s.qs)) (SFIFOv0.init cs adm n)
      (Calls p (Steady sz (cs / n) 0 p)) := by
  intro ops out s ho hr r hok hnc ha
  obtain ⟨s', h1, h2, h3⟩ := SFIFOv0.get_rejected hn ((SFIFOv0.contract hn hsim hp hpk hpi).reach (SFIFOv0.inv_init sz cs n p adm) ho hr) hnc ha
  exact ⟨s', h1, by simp only [h2, h3]⟩

theorem C09_safe_SFIFOv0_partial : Safe SFIFOv0.algo (SFIFOv0.init cs adm n) (Calls p (Steady sz (cs / n) 0 p)) :=
  (SFIFOv0.contract hn hsim hp hpk hpi).safe (SFIFOv0.inv_init sz cs n p adm)

theorem C10_toEvictPredicts_SFIFOv0_partial (he : p.ev = true) :
    ToEvictPredicts SFIFOv0.algo SFIFOv0_cached SFIFOv0.toEvict (SFIFOv0.init cs adm n) (Calls p (Steady sz (cs / n) 0 p)) := by
  intro ops out s ho hr hne r
  obtain ⟨a, h, hs⟩ := (SFIFOv0.contract hn hsim hp hpk hpi).reach (SFIFOv0.inv_init sz cs n p adm) ho hr
  obtain ⟨x, hx⟩ := List.exists_mem_of_ne_nil _ hne
  obtain ⟨k, hk⟩ := (h.mem x).1 hx
  obtain ⟨s', y, h1, h2, _, h4⟩ := SFIFOv0.evict_inv (s := s) ⟨a, h, hs⟩ (i := k)
    (by rw [h.segs]; exact Nat.lt_of_lt_of_le ((hs k _ hk).2 he) (SegCaches.charge_mem hk))
  exact ⟨y.1, y.2, s', h2, h1, h4⟩

end

example : SFIFOv0.algo.occ SFIFOv0_demo = 11 ∧ SFIFOv0.algo.nObj SFIFOv0_demo = 4 ∧ 4 ∉ (SFIFOv0_cached SFIFOv0_demo).ids ∧
    (admitsBase SFIFOv0_demo.base ⟨4, 2, -2⟩ && decide (2 ≤ 12 / 2)) = true ∧
    (admitsBase SFIFOv0_demo.base ⟨10, 7, -2⟩ && decide (7 ≤ 12 / 2)) = false ∧ SFIFOv0.toEvict SFIFOv0_demo = some 9 := by
  refine ⟨?_, ?_, ?_, ?_, ?_, ?_⟩ <;> decide +kernel

/-- C03 fails for `find`: looking an object up without updating the cache moves it to the queue above. -/
theorem C03_findPure_fails_SFIFOv0 : ∃ s s', Reaches SFIFOv0.algo (SFIFOv0.init 10 .none 2) [.get ⟨1, 3, -2⟩, .get ⟨2, 3, -2⟩, .get ⟨3, 2, -2⟩] [false, false, false] s ∧
    SFIFOv0.algo.find s ⟨3, 2, -2⟩ false = .ok (true, s') ∧ SFIFOv0_segs s 0 = [(3, 2), (1, 3)] ∧ SFIFOv0_segs s' 0 = [(1, 3)] ∧
    SFIFOv0_segs s' 1 = [(3, 2), (2, 3)] :=
  ⟨_, _, reaches_after (by decide +kernel), res_ok SFIFOv0_demo (by decide +kernel), by decide +kernel, by decide +kernel, by decide +kernel⟩

/-- C04 fails with three queues and objects of several sizes: moving object 4 down pushes object 2 out of the middle queue, and because both moves use the same
temporary request, object 2 is inserted twice and object 4 is lost. -/
theorem C04_noDuplicate_fails_SFIFOv0 : ∃ s, Reaches SFIFOv0.algo (SFIFOv0.init 12 .none 3)
      [.get ⟨1, 4, -2⟩, .get ⟨2, 2, -2⟩, .get ⟨6, 2, -2⟩, .get ⟨4, 3, -2⟩, .get ⟨6, 2, -2⟩] [false, false, false, false, true] s ∧
    SFIFOv0_segs s 0 = [(2, 2)] ∧ SFIFOv0_segs s 1 = [(2, 2)] ∧ SFIFOv0_segs s 2 = [(6, 2)] ∧ ¬ (SFIFOv0_cached s).ids.Nodup :=
  ⟨_, reaches_after (by decide +kernel), by decide +kernel, by decide +kernel, by decide +kernel, by decide +kernel⟩

/-- C06 fails on a hit: 9 of 10 bytes are in use, object 3 moves up, object 2 moves down, and object 1 is evicted. -/
theorem C06_evictOnDemand_fails_SFIFOv0 : ¬ EvictOnDemand SFIFOv0.algo SFIFOv0_cached (SFIFOv0.init 10 .none 2) (Calls noFind (Steady (fun _ => 3) (10 / 2) 0 noFind)) 10 0 := by
  intro h
  have := (h [.get ⟨1, 3, -2⟩, .get ⟨2, 3, -2⟩, .get ⟨3, 3, -2⟩] _ _ (by
    intro op hop
    simp only [List.mem_cons, List.not_mem_nil, or_false] at hop
    rcases hop with rfl | rfl | rfl <;> simp [Calls, Steady]) (reaches_after (out := [false, false, false]) (by decide +kernel)) ⟨3, 3, -2⟩ true _
    (by simp [Calls, Steady]) (get_after (by decide +kernel))).1 rfl
  have hl := this.length_eq
  revert hl
  decide +kernel

/-- C09 fails when an object is requested with a larger size than before: the hit tries to make room for it in a queue that is too small and looks for the oldest
object of an empty queue (NULL pointer). -/
theorem C09_safe_fails_SFIFOv0_sizes : faultOf SFIFOv0.algo (SFIFOv0.init 10 .none 2) [.get ⟨1, 3, -2⟩, .get ⟨1, 7, -2⟩] = some .nullDeref := by decide +kernel

/-- C10 fails when only empty objects are cached: `to_evict` returns NULL and `evict` evicts nothing. -/
theorem C10_toEvict_fails_SFIFOv0_empty : ∃ s, Reaches SFIFOv0.algo (SFIFOv0.init 10 .none 2) [.get ⟨1, 0, -2⟩] [false] s ∧ SFIFOv0_cached s = [(1, 0)] ∧
    SFIFOv0.toEvict s = none ∧ ∀ r, SFIFOv0.algo.evict s r = .ok s := by
  refine ⟨_, reaches_after (by decide +kernel), by decide +kernel, by decide +kernel, fun r => ?_⟩
  rw [show ∀ s r, SFIFOv0.algo.evict s r = SFIFOv0.evict s from fun _ _ => rfl, SFIFOv0.evict, show SFIFOv0.lowest (after SFIFOv0.algo (SFIFOv0.init 10 .none 2) [.get ⟨1, 0, -2⟩]) = none by decide +kernel]

/-! ## C75 -/

section
variable (sz : ObjId → Nat) (cs n : Nat) (adm : Adm) (p : Perms) (hn : 1 ≤ n) (hsim : n ≤ 2 ∨ ∃ c, ∀ id, sz id = c)
  (hp : p.upd = false) (hpk : p.peek = false) (hpi : p.ins = false) (ops : List Op) (out : List Bool) (s : SFIFOv0.State)
  (ho : ∀ op ∈ ops, Calls p (Steady sz (cs / n) 0 p) op) (hr : Reaches SFIFOv0.algo (SFIFOv0.init cs adm n) ops out s)
include hn hsim hp hpk hpi ho hr

/-- Every cached object is in exactly one queue, and queues hold only cached objects. -/
theorem C75_oneQueue_SFIFOv0_partial : (∀ x, x ∈ SFIFOv0_cached s ↔ ∃ k, k < n ∧ x ∈ SFIFOv0_segs s k) ∧
    (∀ j k x y, x ∈ SFIFOv0_segs s j → y ∈ SFIFOv0_segs s k → x.1 = y.1 → j = k ∧ x = y) ∧ ∀ k, (SFIFOv0_segs s k).ids.Nodup := by
  obtain ⟨a, h, _⟩ := (SFIFOv0.contract hn hsim hp hpk hpi).reach (SFIFOv0.inv_init sz cs n p adm) ho hr
  rw [SFIFOv0_segs, h.segs]
  refine ⟨fun x => ?_, fun j k x y hx hy e => h.abs.same hx hy e, h.abs.nd⟩
  rw [h.mem]
  exact ⟨fun ⟨k, hk⟩ => ⟨k, h.abs.lt hk, hk⟩, fun ⟨k, _, hk⟩ => ⟨k, hk⟩⟩

/-- Every queue but the lowest is within its limit. -/
theorem C75_limits_SFIFOv0_partial (k : Nat) (hk : 1 ≤ k) : bytes 0 (SFIFOv0_segs s k) ≤ cs / n := by
  obtain ⟨a, h, _⟩ := (SFIFOv0.contract hn hsim hp hpk hpi).reach (SFIFOv0.inv_init sz cs n p adm) ho hr
  rw [bytes_eq_charge, SFIFOv0_segs, h.segs]; exact h.within k hk

/-- A hit: nothing happens in the top queue; elsewhere the object moves to the recent end of the queue above, which passes its oldest objects down until it
is within its limit. -/
theorem C75_hit_SFIFOv0_partial (k : Nat) (x : ObjId × Nat) (hx : x ∈ SFIFOv0_segs s k) (r : Req) (he : r.id = x.1) (hsz : r.size = sz r.id) :
    ∃ s', SFIFOv0.algo.get s r = .ok (true, s') ∧ SFIFOv0_segs s' = fifoHit (fun _ => cs / n) n (SFIFOv0_segs s) k x := by
  exact SFIFOv0.get_hits hsim ((SFIFOv0.contract hn hsim hp hpk hpi).reach (SFIFOv0.inv_init sz cs n p adm) ho hr) hx he hsz

/-- In particular, the object becomes the most recent one of the queue above. -/
theorem C75_promoted_SFIFOv0_partial (k : Nat) (x : ObjId × Nat) (hx : x ∈ SFIFOv0_segs s k) (hk : k + 1 < n) (r : Req) (he : r.id = x.1) (hsz : r.size = sz r.id) :
    ∃ s', SFIFOv0.algo.get s r = .ok (true, s') ∧ (SFIFOv0_segs s' (k + 1)).head? = some x := by
  have hi := (SFIFOv0.contract hn hsim hp hpk hpi).reach (SFIFOv0.inv_init sz cs n p adm) ho hr
  obtain ⟨s', h1, h2⟩ := SFIFOv0.get_hits hsim hi hx he hsz
  refine ⟨s', h1, ?_⟩
  obtain ⟨a, h, _⟩ := hi
  have hfit : x.2 ≤ cs / n := by
    rw [SFIFOv0_segs, h.segs] at hx
    exact h.fits k x hx
  rw [SFIFOv0_segs, h2, fifoHit, if_neg (by omega), settle_self, put_self, keep, if_pos hfit]; rfl

/-- A miss that is admitted: evictions from the lowest queue that holds any bytes; then the object becomes the most recent one of the lowest queue with room for it;
if none has room, of queue 0.  (C06 says that no more is evicted than needed.) -/
theorem C75_miss_SFIFOv0_partial (r : Req) (hok : Steady sz (cs / n) 0 p r) (hnc : r.id ∉ (SFIFOv0_cached s).ids)
    (ha : (admitsBase s.base r && decide (r.size ≤ cs / n)) = true) :
    ∃ s' victims a k, SFIFOv0.algo.get s r = .ok (false, s') ∧ EvictsAll n (SFIFOv0_segs s) victims a ∧ Target (fun _ => cs / n) n a r.size k ∧
      SFIFOv0_segs s' = put a k ((r.id, r.size) :: a k) := by
  obtain ⟨s', vs, a1, k, h1, h2, h3, h4, _⟩ :=
    SFIFOv0.get_admitted hn ((SFIFOv0.contract hn hsim hp hpk hpi).reach (SFIFOv0.inv_init sz cs n p adm) ho hr) hok hnc ha
  exact ⟨s', vs, a1, k, h1, h2, h3, h4⟩

/-- The victim of `evict` is the oldest object of the lowest queue that holds any bytes. -/
theorem C75_victim_SFIFOv0_partial (k : Nat) (hb : 0 < bytes 0 (SFIFOv0_segs s k)) (r : Req) :
    ∃ s' x, SFIFOv0.algo.evict s r = .ok s' ∧ EvictsLowest n (SFIFOv0_segs s) x (SFIFOv0_segs s') ∧ (SFIFOv0_cached s).Perm (x :: SFIFOv0_cached s') := by
  obtain ⟨s', x, h1, _, h2, h3⟩ :=
    SFIFOv0.evict_inv ((SFIFOv0.contract hn hsim hp hpk hpi).reach (SFIFOv0.inv_init sz cs n p adm) ho hr) (by rw [← bytes_eq_charge]; exact hb)
  exact ⟨s', x, h1, h2, h3⟩

/-- Removing an object takes it out of its queue and leaves the order in all queues alone. -/
theorem C75_remove_SFIFOv0_partial (id : ObjId) :
    ∃ s', SFIFOv0.algo.remove s id = .ok (decide (id ∈ (SFIFOv0_cached s).ids), s') ∧ ∀ k, SFIFOv0_segs s' k = without id (SFIFOv0_segs s k) := by
  obtain ⟨a, h, _⟩ := (SFIFOv0.contract hn hsim hp hpk hpi).reach (SFIFOv0.inv_init sz cs n p adm) ho hr
  obtain ⟨s', a', h1, h2, _, h3⟩ := h.remove id
  refine ⟨s', h1, ?_⟩
  rw [SFIFOv0_segs, SFIFOv0_segs, h.segs, h2.segs]; exact h3

end

/-- a hit in the lower queue of the demo state: object 8 moves up, object 2 moves down, and object 9 stays -/
example : (match SFIFOv0.algo.get SFIFOv0_demo ⟨8, 2, -2⟩ with
    | .ok p => some (p.1, SFIFOv0_segs p.2 0, SFIFOv0_segs p.2 1)
    | .error _ => none) = some (true, [(2, 3), (9, 3)], [(8, 2), (3, 3)]) := by decide +kernel

/-- C75 fails for the limit of the lowest queue: with queues of 5 bytes it holds 6. -/
theorem C75_lowest_fails_SFIFOv0 : ∃ s, Reaches SFIFOv0.algo (SFIFOv0.init 10 .none 2) [.get ⟨1, 3, -2⟩, .get ⟨2, 3, -2⟩, .get ⟨3, 3, -2⟩] [false, false, false] s ∧
    SFIFOv0_segs s 0 = [(3, 3), (1, 3)] ∧ SFIFOv0_segs s 1 = [(2, 3)] :=
  ⟨_, reaches_after (by decide +kernel), by decide +kernel, by decide +kernel⟩

end Verif.Props
