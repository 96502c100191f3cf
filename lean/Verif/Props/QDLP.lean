import Verif.Proof.QDLP
import Verif.Props.Demo
/-!
# Properties of QDLP (libCacheSim/cache/eviction/QDLP.c)

For every cache size `cs`, every size `fs ≤ cs` of the small queue, every size `gs` of the ghost queue (0: none), every threshold `thr` (also
negative) and for the main caches Clock (every counter width; the default), Sieve, LRU and FIFO.  `QDLP.Fits cs fs p ok` says which calls are allowed: an object that fits the small queue
fits the main cache, a client insert does too, and a client `evict` requires that no object has size 0.  Without these the cache crashes: the theorems named `_fails`.
-/

namespace Verif.Props
open Verif Verif.Spec
set_option linter.unusedVariables false
set_option maxRecDepth 20000

/-- a client that calls everything, with non-empty objects that fit the main cache -/
theorem QDLP_fits_all (cs fs : Nat) : QDLP.Fits cs fs {} (fun r => r.size ≤ cs - fs ∧ 0 < r.size % u32) :=
  fun _ h => ⟨fun _ => h.1, fun _ => h.1, fun _ => h.2⟩

/-- a simulator, which neither inserts nor evicts: any request, if the main cache is at least as large as the small queue (by default it is 9 times as large) -/
theorem QDLP_fits_simulator (cs fs : Nat) (h : 2 * fs ≤ cs) : QDLP.Fits cs fs { ins := false, ev := false } (fun _ => True) :=
  fun r _ => ⟨fun h1 => by omega, by simp, by simp⟩

/-- the ids in the small queue (youngest first) and in the ghost queue -/
def QDLP_small {τ : Type} (s : QDLP.State τ) : List ObjId := s.fifo.objs.map (·.id)
def QDLP_ghost {τ : Type} (s : QDLP.State τ) : List ObjId := ghostIds s.ghost

/-- a demo run: hits in both parts, a ghost hit, evictions, removals, an insertion, a too large object -/
def QDLP_ops : List Op := [.get ⟨1, 3, -2⟩, .get ⟨2, 3, -2⟩, .get ⟨1, 3, -2⟩, .get ⟨3, 3, -2⟩, .get ⟨4, 2, -2⟩, .find ⟨3, 3, -2⟩ false,
  .find ⟨1, 3, -2⟩ true, .get ⟨7, 5, -2⟩, .get ⟨2, 3, -2⟩, .remove 4, .remove 9, .get ⟨1, 3, -2⟩, .get ⟨5, 1, -2⟩,
  .get ⟨6, 1, -2⟩, .get ⟨6, 1, -2⟩, .evict ⟨0, 0, -2⟩, .insert ⟨8, 1, -2⟩, .get ⟨9, 3, -2⟩, .get ⟨3, 3, -2⟩, .get ⟨5, 1, -2⟩, .get ⟨10, 2, -2⟩]

theorem QDLP_ops_calls : ∀ op ∈ QDLP_ops, Calls {} (fun r => r.size ≤ 10 - 4 ∧ 0 < r.size % u32) op := by
  intro op hop
  simp only [QDLP_ops, List.mem_cons, List.not_mem_nil, or_false] at hop
  rcases hop with rfl | rfl | rfl | rfl | rfl | rfl | rfl | rfl | rfl | rfl | rfl | rfl | rfl | rfl | rfl | rfl | rfl | rfl | rfl | rfl | rfl <;> simp [Calls, u32]

/-! ## Main cache Clock -/

/-- what is cached: the small queue and the main cache -/
abbrev QDLPClock_cached (s : QDLP.State Clock.State) : Contents := QDLP.cached (fun m => m.base.cached) s

def QDLPClock_demo : QDLP.State Clock.State := after QDLP.onClock (QDLP.initClock 10 4 9 1 3) QDLP_ops

/-- the demo runs without fault -/
example : (answers QDLP.onClock (QDLP.initClock 10 4 9 1 3) QDLP_ops).isSome = true := by decide +kernel

theorem C01_capacity_QDLPClock_partial (cs fs gs : Nat) (thr : Int) (maxFreq : Nat) (h : fs ≤ cs) (p : Perms) (ok : Req → Prop) (hok : QDLP.Fits cs fs p ok) :
    Capacity QDLP.onClock (QDLP.initClock cs fs gs thr maxFreq) (Calls p ok) cs :=
  (QDLP.contract (MainCache.clock (cs - fs) maxFreq) gs thr hok).capacity (QDLP.inv_init _ ⟨Clock.inv_init (cs - fs) 0 maxFreq .none, rfl⟩ rfl gs thr _ _ h)

example : QDLP.onClock.occ QDLPClock_demo > 5 := by decide +kernel

theorem C02_accounting_QDLPClock_partial (cs fs gs : Nat) (thr : Int) (maxFreq : Nat) (h : fs ≤ cs) (p : Perms) (ok : Req → Prop) (hok : QDLP.Fits cs fs p ok) :
    Accounting QDLP.onClock QDLPClock_cached (QDLP.initClock cs fs gs thr maxFreq) (Calls p ok) 0 :=
  (QDLP.contract (MainCache.clock (cs - fs) maxFreq) gs thr hok).accounting (QDLP.inv_init _ ⟨Clock.inv_init (cs - fs) 0 maxFreq .none, rfl⟩ rfl gs thr _ _ h)

example : QDLP.onClock.nObj QDLPClock_demo > 3 := by decide +kernel

theorem C03_hitIffCached_QDLPClock_partial (cs fs gs : Nat) (thr : Int) (maxFreq : Nat) (h : fs ≤ cs) (p : Perms) (ok : Req → Prop) (hok : QDLP.Fits cs fs p ok) :
    HitIffCached QDLP.onClock QDLPClock_cached (QDLP.initClock cs fs gs thr maxFreq) (Calls p ok) :=
  (QDLP.contract (MainCache.clock (cs - fs) maxFreq) gs thr hok).hitIffCached (QDLP.inv_init _ ⟨Clock.inv_init (cs - fs) 0 maxFreq .none, rfl⟩ rfl gs thr _ _ h)

/-- Without client inserts. -/
theorem C04_noPhantom_QDLPClock_partial (cs fs gs : Nat) (thr : Int) (maxFreq : Nat) (h : fs ≤ cs) (p : Perms) (ok : Req → Prop) (hok : QDLP.Fits cs fs p ok) (hins : p.ins = false) :
    NoPhantom QDLP.onClock QDLPClock_cached (QDLP.initClock cs fs gs thr maxFreq) (Calls p ok) :=
  QDLP.noPhantom (MainCache.clock (cs - fs) maxFreq) hok hins ⟨Clock.inv_init (cs - fs) 0 maxFreq .none, rfl⟩ rfl h

theorem C04_addsOnlyRequested_QDLPClock_partial (cs fs gs : Nat) (thr : Int) (maxFreq : Nat) (h : fs ≤ cs) (p : Perms) (ok : Req → Prop) (hok : QDLP.Fits cs fs p ok) :
    AddsOnlyRequested QDLP.onClock QDLPClock_cached (QDLP.initClock cs fs gs thr maxFreq) (Calls p ok) :=
  (QDLP.contract (MainCache.clock (cs - fs) maxFreq) gs thr hok).addsOnlyRequested (QDLP.inv_init _ ⟨Clock.inv_init (cs - fs) 0 maxFreq .none, rfl⟩ rfl gs thr _ _ h)

/-- Of the objects just as large as the small queue, which `can_insert` accepts, only those in the ghost queue are cached (`QDLP.takes`). -/
theorem C05_admittedMissCached_QDLPClock_partial (cs fs gs : Nat) (thr : Int) (maxFreq : Nat) (h : fs ≤ cs) (p : Perms) (ok : Req → Prop) (hok : QDLP.Fits cs fs p ok) :
    AdmittedMissCached QDLP.onClock QDLPClock_cached (QDLP.takes fs) (QDLP.initClock cs fs gs thr maxFreq) (Calls p ok) :=
  QDLP.admittedMissCached (MainCache.clock (cs - fs) maxFreq) hok ⟨Clock.inv_init (cs - fs) 0 maxFreq .none, rfl⟩ rfl h

/-- an admitted miss that evicts -/
example : 7 ∉ (QDLPClock_cached QDLPClock_demo).ids ∧ QDLP.takes 4 QDLPClock_demo ⟨7, 3, -2⟩ = true := by decide +kernel

/-- Without client inserts.  The answer is also `true` for an object in the ghost queue. -/
theorem C07_removeExact_QDLPClock_partial (cs fs gs : Nat) (thr : Int) (maxFreq : Nat) (h : fs ≤ cs) (p : Perms) (ok : Req → Prop) (hok : QDLP.Fits cs fs p ok) (hins : p.ins = false) (ops : List Op) (out : List Bool) (s : QDLP.State Clock.State)
    (ho : ∀ op ∈ ops, Calls p ok op) (hr : Reaches QDLP.onClock (QDLP.initClock cs fs gs thr maxFreq) ops out s) (id : ObjId) :
    ∃ s', QDLP.onClock.remove s id = .ok (decide (id ∈ (QDLPClock_cached s).ids ∨ id ∈ QDLP_ghost s), s') ∧
      (QDLPClock_cached s').Perm ((QDLPClock_cached s).filter (fun x => x.1 ≠ id)) :=
  QDLP.removeExact (MainCache.clock (cs - fs) maxFreq) hok hins ⟨Clock.inv_init (cs - fs) 0 maxFreq .none, rfl⟩ rfl h ops out s ho hr id

/-- A request that is not admitted leaves both parts unchanged (order, frequencies and counters included).  It drops the object's ghost entry. -/
theorem C08_rejectQuiet_QDLPClock_partial (cs fs gs : Nat) (thr : Int) (maxFreq : Nat) (h : fs ≤ cs) (p : Perms) (ok : Req → Prop) (hok : QDLP.Fits cs fs p ok) :
    RejectQuiet QDLP.onClock QDLPClock_cached (fun _ r => decide (r.size ≤ fs)) (fun s => (s.fifo, s.main)) (QDLP.initClock cs fs gs thr maxFreq) (Calls p ok) :=
  QDLP.rejectQuiet (MainCache.clock (cs - fs) maxFreq) hok ⟨Clock.inv_init (cs - fs) 0 maxFreq .none, rfl⟩ rfl h (fun r hi hn => (Clock.strong (cs - fs) 0 maxFreq).missQuiet r hi.1 hn)

/-- a rejected request -/
example : 7 ∉ (QDLPClock_cached QDLPClock_demo).ids ∧ decide ((⟨7, 5, -2⟩ : Req).size ≤ 4) = false := by decide +kernel

theorem C09_safe_QDLPClock_partial (cs fs gs : Nat) (thr : Int) (maxFreq : Nat) (h : fs ≤ cs) (p : Perms) (ok : Req → Prop) (hok : QDLP.Fits cs fs p ok) :
    Safe QDLP.onClock (QDLP.initClock cs fs gs thr maxFreq) (Calls p ok) :=
  (QDLP.contract (MainCache.clock (cs - fs) maxFreq) gs thr hok).safe (QDLP.inv_init _ ⟨Clock.inv_init (cs - fs) 0 maxFreq .none, rfl⟩ rfl gs thr _ _ h)

/-- As a simulator uses it, QDLP never faults, for any requests. -/
theorem C09_safeSimulator_QDLPClock (cs fs gs : Nat) (thr : Int) (maxFreq : Nat) (h : 2 * fs ≤ cs) :
    Safe QDLP.onClock (QDLP.initClock cs fs gs thr maxFreq) (Calls { ins := false, ev := false } (fun _ => True)) :=
  C09_safe_QDLPClock_partial cs fs gs thr maxFreq (by omega) _ _ (QDLP_fits_simulator cs fs h)

/-- C47: without client inserts an object is at most once in the small queue, the main cache and the ghost queue together. -/
theorem C47_onePlace_QDLPClock (cs fs gs : Nat) (thr : Int) (maxFreq : Nat) (h : fs ≤ cs) (p : Perms) (ok : Req → Prop) (hok : QDLP.Fits cs fs p ok) (hins : p.ins = false) (ops : List Op) (out : List Bool) (s : QDLP.State Clock.State)
    (ho : ∀ op ∈ ops, Calls p ok op) (hr : Reaches QDLP.onClock (QDLP.initClock cs fs gs thr maxFreq) ops out s) :
    ((QDLPClock_cached s).ids ++ QDLP_ghost s).Nodup :=
  QDLP.oneQueue (MainCache.clock (cs - fs) maxFreq) hok hins ⟨Clock.inv_init (cs - fs) 0 maxFreq .none, rfl⟩ rfl h ops out s ho hr

example : (fun s => ((QDLPClock_cached s).ids.length, QDLP_ghost s)) (after QDLP.onClock (QDLP.initClock 10 4 9 1 3) [.get ⟨1, 3, -2⟩, .get ⟨2, 2, -2⟩, .evict ⟨0, 0, -2⟩, .get ⟨3, 1, -2⟩]) = (2, [1]) := by decide +kernel

/-- C47: the hits counted for the objects of the small queue are those the client saw. -/
theorem C47_hitsCounted_QDLPClock (cs fs gs : Nat) (thr : Int) (maxFreq : Nat) (h : fs ≤ cs) (p : Perms) (ok : Req → Prop) (hok : QDLP.Fits cs fs p ok) (ops : List Op) (out : List Bool) (s : QDLP.State Clock.State)
    (ho : ∀ op ∈ ops, Calls p ok op) (hr : Reaches QDLP.onClock (QDLP.initClock cs fs gs thr maxFreq) ops out s) :
    ∀ o ∈ s.fifo.objs, o.miscFreq = (hitsSince (ops.zip out) o.id : Int) :=
  QDLP.hitsCounted (MainCache.clock (cs - fs) maxFreq) hok ⟨Clock.inv_init (cs - fs) 0 maxFreq .none, rfl⟩ rfl h ops out s ho hr

example : (after QDLP.onClock (QDLP.initClock 10 4 9 1 3) [.get ⟨1, 3, -2⟩, .get ⟨1, 3, -2⟩, .find ⟨1, 3, -2⟩ true]).fifo.objs.map (·.miscFreq) = [2] := by decide +kernel

/-- C47: what one call of `evict` does.  If the small queue holds no bytes, the main cache evicts.  Otherwise the oldest object of the small queue
leaves it: hit at least `thr` times since it entered, it is requested from the main cache; hit less often, it leaves the cache and is
remembered in the ghost queue, if there is one and it would fit. -/
theorem C47_evict_QDLPClock (cs fs gs : Nat) (thr : Int) (maxFreq : Nat) (h : fs ≤ cs) (p : Perms) (ok : Req → Prop) (hok : QDLP.Fits cs fs p ok) (ops : List Op) (out : List Bool) (s : QDLP.State Clock.State)
    (ho : ∀ op ∈ ops, Calls p ok op) (hr : Reaches QDLP.onClock (QDLP.initClock cs fs gs thr maxFreq) ops out s)
    (hpos : 0 < bytes 0 (QDLPClock_cached s) ∨ (p.ev = true ∧ QDLPClock_cached s ≠ [])) (r : Req) :
    ∃ s', QDLP.onClock.evict s r = .ok s' ∧
      (bytes 0 (cont s.fifo.objs) = 0 → s'.fifo = s.fifo ∧ s'.ghost = s.ghost ∧ Clock.algo.evict s.main r = .ok s'.main ∧
        ∃ v, s.main.base.cached.Perm (v :: s'.main.base.cached)) ∧
      (0 < bytes 0 (cont s.fifo.objs) → ∃ l o, s.fifo.objs = l ++ [o] ∧ s'.fifo.objs = l ∧
        ((hitsSince (ops.zip out) o.id : Int) ≥ thr → s'.ghost = s.ghost ∧ Clock.algo.get s.main o.toReq = .ok (false, s'.main)) ∧
        ((hitsSince (ops.zip out) o.id : Int) < thr → s'.main = s.main ∧ (0 < gs → o.size ≤ gs → o.id ∈ QDLP_ghost s'))) :=
  QDLP.evictRule (MainCache.clock (cs - fs) maxFreq) hok ⟨Clock.inv_init (cs - fs) 0 maxFreq .none, rfl⟩ rfl h ops out s ho hr hpos r

/-- the three cases: demoted, promoted, evicted from the main cache -/
example : (fun s => (QDLP_small s, s.main.base.cached.ids, QDLP_ghost s)) (after QDLP.onClock (QDLP.initClock 10 4 9 1 3) [.get ⟨1, 3, -2⟩, .get ⟨2, 2, -2⟩, .evict ⟨0, 0, -2⟩]) = ([2], [], [1]) := by decide +kernel
example : (fun s => (QDLP_small s, s.main.base.cached.ids, QDLP_ghost s)) (after QDLP.onClock (QDLP.initClock 10 4 9 1 3) [.get ⟨1, 3, -2⟩, .get ⟨1, 3, -2⟩, .get ⟨2, 2, -2⟩, .evict ⟨0, 0, -2⟩]) = ([2], [1], []) := by decide +kernel
example : (fun s => (QDLP_small s, s.main.base.cached.ids, QDLP_ghost s)) (after QDLP.onClock (QDLP.initClock 10 4 9 1 3) [.get ⟨1, 3, -2⟩, .get ⟨1, 3, -2⟩, .evict ⟨0, 0, -2⟩, .evict ⟨0, 0, -2⟩]) = ([], [], []) := by decide +kernel

/-- C47: where a missed object goes.  A remembered one that fits the small queue goes into the main cache; any other that is smaller than the small queue becomes
its youngest object, and the objects that left the small queue meanwhile are its oldest; one exactly as large as the small queue is not cached. -/
theorem C47_placed_QDLPClock (cs fs gs : Nat) (thr : Int) (maxFreq : Nat) (h : fs ≤ cs) (p : Perms) (ok : Req → Prop) (hok : QDLP.Fits cs fs p ok) (ops : List Op) (out : List Bool) (s : QDLP.State Clock.State)
    (ho : ∀ op ∈ ops, Calls p ok op) (hr : Reaches QDLP.onClock (QDLP.initClock cs fs gs thr maxFreq) ops out s) (r : Req) (hor : ok r) (s' : QDLP.State Clock.State)
    (hg : QDLP.onClock.get s r = .ok (false, s')) :
    (r.size ≤ fs → r.id ∈ QDLP_ghost s → r.id ∈ s'.main.base.cached.ids) ∧
    (r.size < fs → r.id ∉ QDLP_ghost s → ∃ l l', QDLP_small s' = r.id :: l ∧ QDLP_small s = l ++ l') ∧
    (r.size = fs → r.id ∉ QDLP_ghost s → r.id ∉ (QDLPClock_cached s').ids) :=
  QDLP.placed (MainCache.clock (cs - fs) maxFreq) hok ⟨Clock.inv_init (cs - fs) 0 maxFreq .none, rfl⟩ rfl h ops out s ho hr r hor s' hg

/-- a remembered object -/
example : (fun s => (QDLP_small s, s.main.base.cached.ids, QDLP_ghost s)) (after QDLP.onClock (QDLP.initClock 10 4 9 1 3) [.get ⟨1, 3, -2⟩, .evict ⟨0, 0, -2⟩, .get ⟨1, 3, -2⟩, .get ⟨2, 3, -2⟩]) = ([2], [1], []) := by decide +kernel

/-! ## Main cache Sieve -/

/-- what is cached: the small queue and the main cache -/
abbrev QDLPSieve_cached (s : QDLP.State Sieve.State) : Contents := QDLP.cached (fun m => m.base.cached) s

def QDLPSieve_demo : QDLP.State Sieve.State := after QDLP.onSieve (QDLP.initSieve 10 4 9 1) QDLP_ops

/-- the demo runs without fault -/
example : (answers QDLP.onSieve (QDLP.initSieve 10 4 9 1) QDLP_ops).isSome = true := by decide +kernel

theorem C01_capacity_QDLPSieve_partial (cs fs gs : Nat) (thr : Int) (h : fs ≤ cs) (p : Perms) (ok : Req → Prop) (hok : QDLP.Fits cs fs p ok) :
    Capacity QDLP.onSieve (QDLP.initSieve cs fs gs thr) (Calls p ok) cs :=
  (QDLP.contract (MainCache.sieve (cs - fs)) gs thr hok).capacity (QDLP.inv_init _ ⟨Sieve.inv_init (cs - fs) 0 .none, rfl⟩ rfl gs thr _ _ h)

example : QDLP.onSieve.occ QDLPSieve_demo > 5 := by decide +kernel

theorem C02_accounting_QDLPSieve_partial (cs fs gs : Nat) (thr : Int) (h : fs ≤ cs) (p : Perms) (ok : Req → Prop) (hok : QDLP.Fits cs fs p ok) :
    Accounting QDLP.onSieve QDLPSieve_cached (QDLP.initSieve cs fs gs thr) (Calls p ok) 0 :=
  (QDLP.contract (MainCache.sieve (cs - fs)) gs thr hok).accounting (QDLP.inv_init _ ⟨Sieve.inv_init (cs - fs) 0 .none, rfl⟩ rfl gs thr _ _ h)

example : QDLP.onSieve.nObj QDLPSieve_demo > 3 := by decide +kernel

theorem C03_hitIffCached_QDLPSieve_partial (cs fs gs : Nat) (thr : Int) (h : fs ≤ cs) (p : Perms) (ok : Req → Prop) (hok : QDLP.Fits cs fs p ok) :
    HitIffCached QDLP.onSieve QDLPSieve_cached (QDLP.initSieve cs fs gs thr) (Calls p ok) :=
  (QDLP.contract (MainCache.sieve (cs - fs)) gs thr hok).hitIffCached (QDLP.inv_init _ ⟨Sieve.inv_init (cs - fs) 0 .none, rfl⟩ rfl gs thr _ _ h)

/-- Without client inserts. -/
theorem C04_noPhantom_QDLPSieve_partial (cs fs gs : Nat) (thr : Int) (h : fs ≤ cs) (p : Perms) (ok : Req → Prop) (hok : QDLP.Fits cs fs p ok) (hins : p.ins = false) :
    NoPhantom QDLP.onSieve QDLPSieve_cached (QDLP.initSieve cs fs gs thr) (Calls p ok) :=
  QDLP.noPhantom (MainCache.sieve (cs - fs)) hok hins ⟨Sieve.inv_init (cs - fs) 0 .none, rfl⟩ rfl h

theorem C04_addsOnlyRequested_QDLPSieve_partial (cs fs gs : Nat) (thr : Int) (h : fs ≤ cs) (p : Perms) (ok : Req → Prop) (hok : QDLP.Fits cs fs p ok) :
    AddsOnlyRequested QDLP.onSieve QDLPSieve_cached (QDLP.initSieve cs fs gs thr) (Calls p ok) :=
  (QDLP.contract (MainCache.sieve (cs - fs)) gs thr hok).addsOnlyRequested (QDLP.inv_init _ ⟨Sieve.inv_init (cs - fs) 0 .none, rfl⟩ rfl gs thr _ _ h)

/-- Of the objects just as large as the small queue, which `can_insert` accepts, only those in the ghost queue are cached (`QDLP.takes`). -/
theorem C05_admittedMissCached_QDLPSieve_partial (cs fs gs : Nat) (thr : Int) (h : fs ≤ cs) (p : Perms) (ok : Req → Prop) (hok : QDLP.Fits cs fs p ok) :
    AdmittedMissCached QDLP.onSieve QDLPSieve_cached (QDLP.takes fs) (QDLP.initSieve cs fs gs thr) (Calls p ok) :=
  QDLP.admittedMissCached (MainCache.sieve (cs - fs)) hok ⟨Sieve.inv_init (cs - fs) 0 .none, rfl⟩ rfl h

/-- an admitted miss that evicts -/
example : 7 ∉ (QDLPSieve_cached QDLPSieve_demo).ids ∧ QDLP.takes 4 QDLPSieve_demo ⟨7, 3, -2⟩ = true := by decide +kernel

/-- Without client inserts.  The answer is also `true` for an object in the ghost queue. -/
theorem C07_removeExact_QDLPSieve_partial (cs fs gs : Nat) (thr : Int) (h : fs ≤ cs) (p : Perms) (ok : Req → Prop) (hok : QDLP.Fits cs fs p ok) (hins : p.ins = false) (ops : List Op) (out : List Bool) (s : QDLP.State Sieve.State)
    (ho : ∀ op ∈ ops, Calls p ok op) (hr : Reaches QDLP.onSieve (QDLP.initSieve cs fs gs thr) ops out s) (id : ObjId) :
    ∃ s', QDLP.onSieve.remove s id = .ok (decide (id ∈ (QDLPSieve_cached s).ids ∨ id ∈ QDLP_ghost s), s') ∧
      (QDLPSieve_cached s').Perm ((QDLPSieve_cached s).filter (fun x => x.1 ≠ id)) :=
  QDLP.removeExact (MainCache.sieve (cs - fs)) hok hins ⟨Sieve.inv_init (cs - fs) 0 .none, rfl⟩ rfl h ops out s ho hr id

/-- A request that is not admitted leaves both parts unchanged (order, frequencies and counters included).  It drops the object's ghost entry. -/
theorem C08_rejectQuiet_QDLPSieve_partial (cs fs gs : Nat) (thr : Int) (h : fs ≤ cs) (p : Perms) (ok : Req → Prop) (hok : QDLP.Fits cs fs p ok) :
    RejectQuiet QDLP.onSieve QDLPSieve_cached (fun _ r => decide (r.size ≤ fs)) (fun s => (s.fifo, s.main)) (QDLP.initSieve cs fs gs thr) (Calls p ok) :=
  QDLP.rejectQuiet (MainCache.sieve (cs - fs)) hok ⟨Sieve.inv_init (cs - fs) 0 .none, rfl⟩ rfl h (fun r hi hn => (Sieve.strong (cs - fs) 0).missQuiet r hi.1 hn)

/-- a rejected request -/
example : 7 ∉ (QDLPSieve_cached QDLPSieve_demo).ids ∧ decide ((⟨7, 5, -2⟩ : Req).size ≤ 4) = false := by decide +kernel

theorem C09_safe_QDLPSieve_partial (cs fs gs : Nat) (thr : Int) (h : fs ≤ cs) (p : Perms) (ok : Req → Prop) (hok : QDLP.Fits cs fs p ok) :
    Safe QDLP.onSieve (QDLP.initSieve cs fs gs thr) (Calls p ok) :=
  (QDLP.contract (MainCache.sieve (cs - fs)) gs thr hok).safe (QDLP.inv_init _ ⟨Sieve.inv_init (cs - fs) 0 .none, rfl⟩ rfl gs thr _ _ h)

/-- As a simulator uses it, QDLP never faults, for any requests. -/
theorem C09_safeSimulator_QDLPSieve (cs fs gs : Nat) (thr : Int) (h : 2 * fs ≤ cs) :
    Safe QDLP.onSieve (QDLP.initSieve cs fs gs thr) (Calls { ins := false, ev := false } (fun _ => True)) :=
  C09_safe_QDLPSieve_partial cs fs gs thr (by omega) _ _ (QDLP_fits_simulator cs fs h)

/-- C47: without client inserts an object is at most once in the small queue, the main cache and the ghost queue together. -/
theorem C47_onePlace_QDLPSieve (cs fs gs : Nat) (thr : Int) (h : fs ≤ cs) (p : Perms) (ok : Req → Prop) (hok : QDLP.Fits cs fs p ok) (hins : p.ins = false) (ops : List Op) (out : List Bool) (s : QDLP.State Sieve.State)
    (ho : ∀ op ∈ ops, Calls p ok op) (hr : Reaches QDLP.onSieve (QDLP.initSieve cs fs gs thr) ops out s) :
    ((QDLPSieve_cached s).ids ++ QDLP_ghost s).Nodup :=
  QDLP.oneQueue (MainCache.sieve (cs - fs)) hok hins ⟨Sieve.inv_init (cs - fs) 0 .none, rfl⟩ rfl h ops out s ho hr

example : (fun s => ((QDLPSieve_cached s).ids.length, QDLP_ghost s)) (after QDLP.onSieve (QDLP.initSieve 10 4 9 1) [.get ⟨1, 3, -2⟩, .get ⟨2, 2, -2⟩, .evict ⟨0, 0, -2⟩, .get ⟨3, 1, -2⟩]) = (2, [1]) := by decide +kernel

/-- C47: the hits counted for the objects of the small queue are those the client saw. -/
theorem C47_hitsCounted_QDLPSieve (cs fs gs : Nat) (thr : Int) (h : fs ≤ cs) (p : Perms) (ok : Req → Prop) (hok : QDLP.Fits cs fs p ok) (ops : List Op) (out : List Bool) (s : QDLP.State Sieve.State)
    (ho : ∀ op ∈ ops, Calls p ok op) (hr : Reaches QDLP.onSieve (QDLP.initSieve cs fs gs thr) ops out s) :
    ∀ o ∈ s.fifo.objs, o.miscFreq = (hitsSince (ops.zip out) o.id : Int) :=
  QDLP.hitsCounted (MainCache.sieve (cs - fs)) hok ⟨Sieve.inv_init (cs - fs) 0 .none, rfl⟩ rfl h ops out s ho hr

example : (after QDLP.onSieve (QDLP.initSieve 10 4 9 1) [.get ⟨1, 3, -2⟩, .get ⟨1, 3, -2⟩, .find ⟨1, 3, -2⟩ true]).fifo.objs.map (·.miscFreq) = [2] := by decide +kernel

/-- C47: what one call of `evict` does.  If the small queue holds no bytes, the main cache evicts.  Otherwise the oldest object of the small queue
leaves it: hit at least `thr` times since it entered, it is requested from the main cache; hit less often, it leaves the cache and is
remembered in the ghost queue, if there is one and it would fit. -/
theorem C47_evict_QDLPSieve (cs fs gs : Nat) (thr : Int) (h : fs ≤ cs) (p : Perms) (ok : Req → Prop) (hok : QDLP.Fits cs fs p ok) (ops : List Op) (out : List Bool) (s : QDLP.State Sieve.State)
    (ho : ∀ op ∈ ops, Calls p ok op) (hr : Reaches QDLP.onSieve (QDLP.initSieve cs fs gs thr) ops out s)
    (hpos : 0 < bytes 0 (QDLPSieve_cached s) ∨ (p.ev = true ∧ QDLPSieve_cached s ≠ [])) (r : Req) :
    ∃ s', QDLP.onSieve.evict s r = .ok s' ∧
      (bytes 0 (cont s.fifo.objs) = 0 → s'.fifo = s.fifo ∧ s'.ghost = s.ghost ∧ Sieve.algo.evict s.main r = .ok s'.main ∧
        ∃ v, s.main.base.cached.Perm (v :: s'.main.base.cached)) ∧
      (0 < bytes 0 (cont s.fifo.objs) → ∃ l o, s.fifo.objs = l ++ [o] ∧ s'.fifo.objs = l ∧
        ((hitsSince (ops.zip out) o.id : Int) ≥ thr → s'.ghost = s.ghost ∧ Sieve.algo.get s.main o.toReq = .ok (false, s'.main)) ∧
        ((hitsSince (ops.zip out) o.id : Int) < thr → s'.main = s.main ∧ (0 < gs → o.size ≤ gs → o.id ∈ QDLP_ghost s'))) :=
  QDLP.evictRule (MainCache.sieve (cs - fs)) hok ⟨Sieve.inv_init (cs - fs) 0 .none, rfl⟩ rfl h ops out s ho hr hpos r

/-- the three cases: demoted, promoted, evicted from the main cache -/
example : (fun s => (QDLP_small s, s.main.base.cached.ids, QDLP_ghost s)) (after QDLP.onSieve (QDLP.initSieve 10 4 9 1) [.get ⟨1, 3, -2⟩, .get ⟨2, 2, -2⟩, .evict ⟨0, 0, -2⟩]) = ([2], [], [1]) := by decide +kernel
example : (fun s => (QDLP_small s, s.main.base.cached.ids, QDLP_ghost s)) (after QDLP.onSieve (QDLP.initSieve 10 4 9 1) [.get ⟨1, 3, -2⟩, .get ⟨1, 3, -2⟩, .get ⟨2, 2, -2⟩, .evict ⟨0, 0, -2⟩]) = ([2], [1], []) := by decide +kernel
example : (fun s => (QDLP_small s, s.main.base.cached.ids, QDLP_ghost s)) (after QDLP.onSieve (QDLP.initSieve 10 4 9 1) [.get ⟨1, 3, -2⟩, .get ⟨1, 3, -2⟩, .evict ⟨0, 0, -2⟩, .evict ⟨0, 0, -2⟩]) = ([], [], []) := by decide +kernel

/-- C47: where a missed object goes.  A remembered one that fits the small queue goes into the main cache; any other that is smaller than the small queue becomes
its youngest object, and the objects that left the small queue meanwhile are its oldest; one exactly as large as the small queue is not cached. -/
theorem C47_placed_QDLPSieve (cs fs gs : Nat) (thr : Int) (h : fs ≤ cs) (p : Perms) (ok : Req → Prop) (hok : QDLP.Fits cs fs p ok) (ops : List Op) (out : List Bool) (s : QDLP.State Sieve.State)
    (ho : ∀ op ∈ ops, Calls p ok op) (hr : Reaches QDLP.onSieve (QDLP.initSieve cs fs gs thr) ops out s) (r : Req) (hor : ok r) (s' : QDLP.State Sieve.State)
    (hg : QDLP.onSieve.get s r = .ok (false, s')) :
    (r.size ≤ fs → r.id ∈ QDLP_ghost s → r.id ∈ s'.main.base.cached.ids) ∧
    (r.size < fs → r.id ∉ QDLP_ghost s → ∃ l l', QDLP_small s' = r.id :: l ∧ QDLP_small s = l ++ l') ∧
    (r.size = fs → r.id ∉ QDLP_ghost s → r.id ∉ (QDLPSieve_cached s').ids) :=
  QDLP.placed (MainCache.sieve (cs - fs)) hok ⟨Sieve.inv_init (cs - fs) 0 .none, rfl⟩ rfl h ops out s ho hr r hor s' hg

/-- a remembered object -/
example : (fun s => (QDLP_small s, s.main.base.cached.ids, QDLP_ghost s)) (after QDLP.onSieve (QDLP.initSieve 10 4 9 1) [.get ⟨1, 3, -2⟩, .evict ⟨0, 0, -2⟩, .get ⟨1, 3, -2⟩, .get ⟨2, 3, -2⟩]) = ([2], [1], []) := by decide +kernel

/-! ## Main cache LRU -/

/-- what is cached: the small queue and the main cache -/
abbrev QDLPLRU_cached (s : QDLP.State LRU.State) : Contents := QDLP.cached (fun m => m.base.cached) s

def QDLPLRU_demo : QDLP.State LRU.State := after QDLP.onLRU (QDLP.initLRU 10 4 9 1) QDLP_ops

/-- the demo runs without fault -/
example : (answers QDLP.onLRU (QDLP.initLRU 10 4 9 1) QDLP_ops).isSome = true := by decide +kernel

theorem C01_capacity_QDLPLRU_partial (cs fs gs : Nat) (thr : Int) (h : fs ≤ cs) (p : Perms) (ok : Req → Prop) (hok : QDLP.Fits cs fs p ok) :
    Capacity QDLP.onLRU (QDLP.initLRU cs fs gs thr) (Calls p ok) cs :=
  (QDLP.contract (MainCache.lru (cs - fs)) gs thr hok).capacity (QDLP.inv_init _ ⟨QInv.init (cs - fs) 0 .none, rfl⟩ rfl gs thr _ _ h)

example : QDLP.onLRU.occ QDLPLRU_demo > 5 := by decide +kernel

theorem C02_accounting_QDLPLRU_partial (cs fs gs : Nat) (thr : Int) (h : fs ≤ cs) (p : Perms) (ok : Req → Prop) (hok : QDLP.Fits cs fs p ok) :
    Accounting QDLP.onLRU QDLPLRU_cached (QDLP.initLRU cs fs gs thr) (Calls p ok) 0 :=
  (QDLP.contract (MainCache.lru (cs - fs)) gs thr hok).accounting (QDLP.inv_init _ ⟨QInv.init (cs - fs) 0 .none, rfl⟩ rfl gs thr _ _ h)

example : QDLP.onLRU.nObj QDLPLRU_demo > 3 := by decide +kernel

theorem C03_hitIffCached_QDLPLRU_partial (cs fs gs : Nat) (thr : Int) (h : fs ≤ cs) (p : Perms) (ok : Req → Prop) (hok : QDLP.Fits cs fs p ok) :
    HitIffCached QDLP.onLRU QDLPLRU_cached (QDLP.initLRU cs fs gs thr) (Calls p ok) :=
  (QDLP.contract (MainCache.lru (cs - fs)) gs thr hok).hitIffCached (QDLP.inv_init _ ⟨QInv.init (cs - fs) 0 .none, rfl⟩ rfl gs thr _ _ h)

/-- Without client inserts. -/
theorem C04_noPhantom_QDLPLRU_partial (cs fs gs : Nat) (thr : Int) (h : fs ≤ cs) (p : Perms) (ok : Req → Prop) (hok : QDLP.Fits cs fs p ok) (hins : p.ins = false) :
    NoPhantom QDLP.onLRU QDLPLRU_cached (QDLP.initLRU cs fs gs thr) (Calls p ok) :=
  QDLP.noPhantom (MainCache.lru (cs - fs)) hok hins ⟨QInv.init (cs - fs) 0 .none, rfl⟩ rfl h

theorem C04_addsOnlyRequested_QDLPLRU_partial (cs fs gs : Nat) (thr : Int) (h : fs ≤ cs) (p : Perms) (ok : Req → Prop) (hok : QDLP.Fits cs fs p ok) :
    AddsOnlyRequested QDLP.onLRU QDLPLRU_cached (QDLP.initLRU cs fs gs thr) (Calls p ok) :=
  (QDLP.contract (MainCache.lru (cs - fs)) gs thr hok).addsOnlyRequested (QDLP.inv_init _ ⟨QInv.init (cs - fs) 0 .none, rfl⟩ rfl gs thr _ _ h)

/-- Of the objects just as large as the small queue, which `can_insert` accepts, only those in the ghost queue are cached (`QDLP.takes`). -/
theorem C05_admittedMissCached_QDLPLRU_partial (cs fs gs : Nat) (thr : Int) (h : fs ≤ cs) (p : Perms) (ok : Req → Prop) (hok : QDLP.Fits cs fs p ok) :
    AdmittedMissCached QDLP.onLRU QDLPLRU_cached (QDLP.takes fs) (QDLP.initLRU cs fs gs thr) (Calls p ok) :=
  QDLP.admittedMissCached (MainCache.lru (cs - fs)) hok ⟨QInv.init (cs - fs) 0 .none, rfl⟩ rfl h

/-- an admitted miss that evicts -/
example : 7 ∉ (QDLPLRU_cached QDLPLRU_demo).ids ∧ QDLP.takes 4 QDLPLRU_demo ⟨7, 3, -2⟩ = true := by decide +kernel

/-- Without client inserts.  The answer is also `true` for an object in the ghost queue. -/
theorem C07_removeExact_QDLPLRU_partial (cs fs gs : Nat) (thr : Int) (h : fs ≤ cs) (p : Perms) (ok : Req → Prop) (hok : QDLP.Fits cs fs p ok) (hins : p.ins = false) (ops : List Op) (out : List Bool) (s : QDLP.State LRU.State)
    (ho : ∀ op ∈ ops, Calls p ok op) (hr : Reaches QDLP.onLRU (QDLP.initLRU cs fs gs thr) ops out s) (id : ObjId) :
    ∃ s', QDLP.onLRU.remove s id = .ok (decide (id ∈ (QDLPLRU_cached s).ids ∨ id ∈ QDLP_ghost s), s') ∧
      (QDLPLRU_cached s').Perm ((QDLPLRU_cached s).filter (fun x => x.1 ≠ id)) :=
  QDLP.removeExact (MainCache.lru (cs - fs)) hok hins ⟨QInv.init (cs - fs) 0 .none, rfl⟩ rfl h ops out s ho hr id

/-- A request that is not admitted leaves both parts unchanged (order, frequencies and counters included).  It drops the object's ghost entry. -/
theorem C08_rejectQuiet_QDLPLRU_partial (cs fs gs : Nat) (thr : Int) (h : fs ≤ cs) (p : Perms) (ok : Req → Prop) (hok : QDLP.Fits cs fs p ok) :
    RejectQuiet QDLP.onLRU QDLPLRU_cached (fun _ r => decide (r.size ≤ fs)) (fun s => (s.fifo, s.main)) (QDLP.initLRU cs fs gs thr) (Calls p ok) :=
  QDLP.rejectQuiet (MainCache.lru (cs - fs)) hok ⟨QInv.init (cs - fs) 0 .none, rfl⟩ rfl h (fun r hi hn => (LRU.strong (cs - fs) 0).missQuiet r hi.1 hn)

/-- a rejected request -/
example : 7 ∉ (QDLPLRU_cached QDLPLRU_demo).ids ∧ decide ((⟨7, 5, -2⟩ : Req).size ≤ 4) = false := by decide +kernel

theorem C09_safe_QDLPLRU_partial (cs fs gs : Nat) (thr : Int) (h : fs ≤ cs) (p : Perms) (ok : Req → Prop) (hok : QDLP.Fits cs fs p ok) :
    Safe QDLP.onLRU (QDLP.initLRU cs fs gs thr) (Calls p ok) :=
  (QDLP.contract (MainCache.lru (cs - fs)) gs thr hok).safe (QDLP.inv_init _ ⟨QInv.init (cs - fs) 0 .none, rfl⟩ rfl gs thr _ _ h)

/-- As a simulator uses it, QDLP never faults, for any requests. -/
theorem C09_safeSimulator_QDLPLRU (cs fs gs : Nat) (thr : Int) (h : 2 * fs ≤ cs) :
    Safe QDLP.onLRU (QDLP.initLRU cs fs gs thr) (Calls { ins := false, ev := false } (fun _ => True)) :=
  C09_safe_QDLPLRU_partial cs fs gs thr (by omega) _ _ (QDLP_fits_simulator cs fs h)

/-- C47: without client inserts an object is at most once in the small queue, the main cache and the ghost queue together. -/
theorem C47_onePlace_QDLPLRU (cs fs gs : Nat) (thr : Int) (h : fs ≤ cs) (p : Perms) (ok : Req → Prop) (hok : QDLP.Fits cs fs p ok) (hins : p.ins = false) (ops : List Op) (out : List Bool) (s : QDLP.State LRU.State)
    (ho : ∀ op ∈ ops, Calls p ok op) (hr : Reaches QDLP.onLRU (QDLP.initLRU cs fs gs thr) ops out s) :
    ((QDLPLRU_cached s).ids ++ QDLP_ghost s).Nodup :=
  QDLP.oneQueue (MainCache.lru (cs - fs)) hok hins ⟨QInv.init (cs - fs) 0 .none, rfl⟩ rfl h ops out s ho hr

example : (fun s => ((QDLPLRU_cached s).ids.length, QDLP_ghost s)) (after QDLP.onLRU (QDLP.initLRU 10 4 9 1) [.get ⟨1, 3, -2⟩, .get ⟨2, 2, -2⟩, .evict ⟨0, 0, -2⟩, .get ⟨3, 1, -2⟩]) = (2, [1]) := by decide +kernel

/-- C47: the hits counted for the objects of the small queue are those the client saw. -/
theorem C47_hitsCounted_QDLPLRU (cs fs gs : Nat) (thr : Int) (h : fs ≤ cs) (p : Perms) (ok : Req → Prop) (hok : QDLP.Fits cs fs p ok) (ops : List Op) (out : List Bool) (s : QDLP.State LRU.State)
    (ho : ∀ op ∈ ops, Calls p ok op) (hr : Reaches QDLP.onLRU (QDLP.initLRU cs fs gs thr) ops out s) :
    ∀ o ∈ s.fifo.objs, o.miscFreq = (hitsSince (ops.zip out) o.id : Int) :=
  QDLP.hitsCounted (MainCache.lru (cs - fs)) hok ⟨QInv.init (cs - fs) 0 .none, rfl⟩ rfl h ops out s ho hr

example : (after QDLP.onLRU (QDLP.initLRU 10 4 9 1) [.get ⟨1, 3, -2⟩, .get ⟨1, 3, -2⟩, .find ⟨1, 3, -2⟩ true]).fifo.objs.map (·.miscFreq) = [2] := by decide +kernel

/-- C47: what one call of `evict` does.  If the small queue holds no bytes, the main cache evicts.  Otherwise the oldest object of the small queue
leaves it: hit at least `thr` times since it entered, it is requested from the main cache; hit less often, it leaves the cache and is
remembered in the ghost queue, if there is one and it would fit. -/
theorem C47_evict_QDLPLRU (cs fs gs : Nat) (thr : Int) (h : fs ≤ cs) (p : Perms) (ok : Req → Prop) (hok : QDLP.Fits cs fs p ok) (ops : List Op) (out : List Bool) (s : QDLP.State LRU.State)
    (ho : ∀ op ∈ ops, Calls p ok op) (hr : Reaches QDLP.onLRU (QDLP.initLRU cs fs gs thr) ops out s)
    (hpos : 0 < bytes 0 (QDLPLRU_cached s) ∨ (p.ev = true ∧ QDLPLRU_cached s ≠ [])) (r : Req) :
    ∃ s', QDLP.onLRU.evict s r = .ok s' ∧
      (bytes 0 (cont s.fifo.objs) = 0 → s'.fifo = s.fifo ∧ s'.ghost = s.ghost ∧ LRU.algo.evict s.main r = .ok s'.main ∧
        ∃ v, s.main.base.cached.Perm (v :: s'.main.base.cached)) ∧
      (0 < bytes 0 (cont s.fifo.objs) → ∃ l o, s.fifo.objs = l ++ [o] ∧ s'.fifo.objs = l ∧
        ((hitsSince (ops.zip out) o.id : Int) ≥ thr → s'.ghost = s.ghost ∧ LRU.algo.get s.main o.toReq = .ok (false, s'.main)) ∧
        ((hitsSince (ops.zip out) o.id : Int) < thr → s'.main = s.main ∧ (0 < gs → o.size ≤ gs → o.id ∈ QDLP_ghost s'))) :=
  QDLP.evictRule (MainCache.lru (cs - fs)) hok ⟨QInv.init (cs - fs) 0 .none, rfl⟩ rfl h ops out s ho hr hpos r

/-- the three cases: demoted, promoted, evicted from the main cache -/
example : (fun s => (QDLP_small s, s.main.base.cached.ids, QDLP_ghost s)) (after QDLP.onLRU (QDLP.initLRU 10 4 9 1) [.get ⟨1, 3, -2⟩, .get ⟨2, 2, -2⟩, .evict ⟨0, 0, -2⟩]) = ([2], [], [1]) := by decide +kernel
example : (fun s => (QDLP_small s, s.main.base.cached.ids, QDLP_ghost s)) (after QDLP.onLRU (QDLP.initLRU 10 4 9 1) [.get ⟨1, 3, -2⟩, .get ⟨1, 3, -2⟩, .get ⟨2, 2, -2⟩, .evict ⟨0, 0, -2⟩]) = ([2], [1], []) := by decide +kernel
example : (fun s => (QDLP_small s, s.main.base.cached.ids, QDLP_ghost s)) (after QDLP.onLRU (QDLP.initLRU 10 4 9 1) [.get ⟨1, 3, -2⟩, .get ⟨1, 3, -2⟩, .evict ⟨0, 0, -2⟩, .evict ⟨0, 0, -2⟩]) = ([], [], []) := by decide +kernel

/-- C47: where a missed object goes.  A remembered one that fits the small queue goes into the main cache; any other that is smaller than the small queue becomes
its youngest object, and the objects that left the small queue meanwhile are its oldest; one exactly as large as the small queue is not cached. -/
theorem C47_placed_QDLPLRU (cs fs gs : Nat) (thr : Int) (h : fs ≤ cs) (p : Perms) (ok : Req → Prop) (hok : QDLP.Fits cs fs p ok) (ops : List Op) (out : List Bool) (s : QDLP.State LRU.State)
    (ho : ∀ op ∈ ops, Calls p ok op) (hr : Reaches QDLP.onLRU (QDLP.initLRU cs fs gs thr) ops out s) (r : Req) (hor : ok r) (s' : QDLP.State LRU.State)
    (hg : QDLP.onLRU.get s r = .ok (false, s')) :
    (r.size ≤ fs → r.id ∈ QDLP_ghost s → r.id ∈ s'.main.base.cached.ids) ∧
    (r.size < fs → r.id ∉ QDLP_ghost s → ∃ l l', QDLP_small s' = r.id :: l ∧ QDLP_small s = l ++ l') ∧
    (r.size = fs → r.id ∉ QDLP_ghost s → r.id ∉ (QDLPLRU_cached s').ids) :=
  QDLP.placed (MainCache.lru (cs - fs)) hok ⟨QInv.init (cs - fs) 0 .none, rfl⟩ rfl h ops out s ho hr r hor s' hg

/-- a remembered object -/
example : (fun s => (QDLP_small s, s.main.base.cached.ids, QDLP_ghost s)) (after QDLP.onLRU (QDLP.initLRU 10 4 9 1) [.get ⟨1, 3, -2⟩, .evict ⟨0, 0, -2⟩, .get ⟨1, 3, -2⟩, .get ⟨2, 3, -2⟩]) = ([2], [1], []) := by decide +kernel

/-! ## Main cache FIFO -/

/-- what is cached: the small queue and the main cache -/
abbrev QDLPFIFO_cached (s : QDLP.State FIFO.State) : Contents := QDLP.cached (fun m => m.base.cached) s

def QDLPFIFO_demo : QDLP.State FIFO.State := after QDLP.onFIFO (QDLP.initFIFO 10 4 9 1) QDLP_ops

/-- the demo runs without fault -/
example : (answers QDLP.onFIFO (QDLP.initFIFO 10 4 9 1) QDLP_ops).isSome = true := by decide +kernel

theorem C01_capacity_QDLPFIFO_partial (cs fs gs : Nat) (thr : Int) (h : fs ≤ cs) (p : Perms) (ok : Req → Prop) (hok : QDLP.Fits cs fs p ok) :
    Capacity QDLP.onFIFO (QDLP.initFIFO cs fs gs thr) (Calls p ok) cs :=
  (QDLP.contract (MainCache.fifo (cs - fs)) gs thr hok).capacity (QDLP.inv_init _ ⟨QInv.init (cs - fs) 0 .none, rfl⟩ rfl gs thr _ _ h)

example : QDLP.onFIFO.occ QDLPFIFO_demo > 5 := by decide +kernel

theorem C02_accounting_QDLPFIFO_partial (cs fs gs : Nat) (thr : Int) (h : fs ≤ cs) (p : Perms) (ok : Req → Prop) (hok : QDLP.Fits cs fs p ok) :
    Accounting QDLP.onFIFO QDLPFIFO_cached (QDLP.initFIFO cs fs gs thr) (Calls p ok) 0 :=
  (QDLP.contract (MainCache.fifo (cs - fs)) gs thr hok).accounting (QDLP.inv_init _ ⟨QInv.init (cs - fs) 0 .none, rfl⟩ rfl gs thr _ _ h)

example : QDLP.onFIFO.nObj QDLPFIFO_demo > 3 := by decide +kernel

theorem C03_hitIffCached_QDLPFIFO_partial (cs fs gs : Nat) (thr : Int) (h : fs ≤ cs) (p : Perms) (ok : Req → Prop) (hok : QDLP.Fits cs fs p ok) :
    HitIffCached QDLP.onFIFO QDLPFIFO_cached (QDLP.initFIFO cs fs gs thr) (Calls p ok) :=
  (QDLP.contract (MainCache.fifo (cs - fs)) gs thr hok).hitIffCached (QDLP.inv_init _ ⟨QInv.init (cs - fs) 0 .none, rfl⟩ rfl gs thr _ _ h)

/-- Without client inserts. -/
theorem C04_noPhantom_QDLPFIFO_partial (cs fs gs : Nat) (thr : Int) (h : fs ≤ cs) (p : Perms) (ok : Req → Prop) (hok : QDLP.Fits cs fs p ok) (hins : p.ins = false) :
    NoPhantom QDLP.onFIFO QDLPFIFO_cached (QDLP.initFIFO cs fs gs thr) (Calls p ok) :=
  QDLP.noPhantom (MainCache.fifo (cs - fs)) hok hins ⟨QInv.init (cs - fs) 0 .none, rfl⟩ rfl h

theorem C04_addsOnlyRequested_QDLPFIFO_partial (cs fs gs : Nat) (thr : Int) (h : fs ≤ cs) (p : Perms) (ok : Req → Prop) (hok : QDLP.Fits cs fs p ok) :
    AddsOnlyRequested QDLP.onFIFO QDLPFIFO_cached (QDLP.initFIFO cs fs gs thr) (Calls p ok) :=
  (QDLP.contract (MainCache.fifo (cs - fs)) gs thr hok).addsOnlyRequested (QDLP.inv_init _ ⟨QInv.init (cs - fs) 0 .none, rfl⟩ rfl gs thr _ _ h)

/-- Of the objects just as large as the small queue, which `can_insert` accepts, only those in the ghost queue are cached (`QDLP.takes`). -/
theorem C05_admittedMissCached_QDLPFIFO_partial (cs fs gs : Nat) (thr : Int) (h : fs ≤ cs) (p : Perms) (ok : Req → Prop) (hok : QDLP.Fits cs fs p ok) :
    AdmittedMissCached QDLP.onFIFO QDLPFIFO_cached (QDLP.takes fs) (QDLP.initFIFO cs fs gs thr) (Calls p ok) :=
  QDLP.admittedMissCached (MainCache.fifo (cs - fs)) hok ⟨QInv.init (cs - fs) 0 .none, rfl⟩ rfl h

/-- an admitted miss that evicts -/
example : 7 ∉ (QDLPFIFO_cached QDLPFIFO_demo).ids ∧ QDLP.takes 4 QDLPFIFO_demo ⟨7, 3, -2⟩ = true := by decide +kernel

/-- Without client inserts.  The answer is also `true` for an object in the ghost queue. -/
theorem C07_removeExact_QDLPFIFO_partial (cs fs gs : Nat) (thr : Int) (h : fs ≤ cs) (p : Perms) (ok : Req → Prop) (hok : QDLP.Fits cs fs p ok) (hins : p.ins = false) (ops : List Op) (out : List Bool) (s : QDLP.State FIFO.State)
    (ho : ∀ op ∈ ops, Calls p ok op) (hr : Reaches QDLP.onFIFO (QDLP.initFIFO cs fs gs thr) ops out s) (id : ObjId) :
    ∃ s', QDLP.onFIFO.remove s id = .ok (decide (id ∈ (QDLPFIFO_cached s).ids ∨ id ∈ QDLP_ghost s), s') ∧
      (QDLPFIFO_cached s').Perm ((QDLPFIFO_cached s).filter (fun x => x.1 ≠ id)) :=
  QDLP.removeExact (MainCache.fifo (cs - fs)) hok hins ⟨QInv.init (cs - fs) 0 .none, rfl⟩ rfl h ops out s ho hr id

/-- A request that is not admitted leaves both parts unchanged (order, frequencies and counters included).  It drops the object's ghost entry. -/
theorem C08_rejectQuiet_QDLPFIFO_partial (cs fs gs : Nat) (thr : Int) (h : fs ≤ cs) (p : Perms) (ok : Req → Prop) (hok : QDLP.Fits cs fs p ok) :
    RejectQuiet QDLP.onFIFO QDLPFIFO_cached (fun _ r => decide (r.size ≤ fs)) (fun s => (s.fifo, s.main)) (QDLP.initFIFO cs fs gs thr) (Calls p ok) :=
  QDLP.rejectQuiet (MainCache.fifo (cs - fs)) hok ⟨QInv.init (cs - fs) 0 .none, rfl⟩ rfl h (fun r hi hn => (FIFO.strong (cs - fs) 0).missQuiet r hi.1 hn)

/-- a rejected request -/
example : 7 ∉ (QDLPFIFO_cached QDLPFIFO_demo).ids ∧ decide ((⟨7, 5, -2⟩ : Req).size ≤ 4) = false := by decide +kernel

theorem C09_safe_QDLPFIFO_partial (cs fs gs : Nat) (thr : Int) (h : fs ≤ cs) (p : Perms) (ok : Req → Prop) (hok : QDLP.Fits cs fs p ok) :
    Safe QDLP.onFIFO (QDLP.initFIFO cs fs gs thr) (Calls p ok) :=
  (QDLP.contract (MainCache.fifo (cs - fs)) gs thr hok).safe (QDLP.inv_init _ ⟨QInv.init (cs - fs) 0 .none, rfl⟩ rfl gs thr _ _ h)

/-- As a simulator uses it, QDLP never faults, for any requests. -/
theorem C09_safeSimulator_QDLPFIFO (cs fs gs : Nat) (thr : Int) (h : 2 * fs ≤ cs) :
    Safe QDLP.onFIFO (QDLP.initFIFO cs fs gs thr) (Calls { ins := false, ev := false } (fun _ => True)) :=
  C09_safe_QDLPFIFO_partial cs fs gs thr (by omega) _ _ (QDLP_fits_simulator cs fs h)

/-- C47: without client inserts an object is at most once in the small queue, the main cache and the ghost queue together. -/
theorem C47_onePlace_QDLPFIFO (cs fs gs : Nat) (thr : Int) (h : fs ≤ cs) (p : Perms) (ok : Req → Prop) (hok : QDLP.Fits cs fs p ok) (hins : p.ins = false) (ops : List Op) (out : List Bool) (s : QDLP.State FIFO.State)
    (ho : ∀ op ∈ ops, Calls p ok op) (hr : Reaches QDLP.onFIFO (QDLP.initFIFO cs fs gs thr) ops out s) :
    ((QDLPFIFO_cached s).ids ++ QDLP_ghost s).Nodup :=
  QDLP.oneQueue (MainCache.fifo (cs - fs)) hok hins ⟨QInv.init (cs - fs) 0 .none, rfl⟩ rfl h ops out s ho hr

example : (fun s => ((QDLPFIFO_cached s).ids.length, QDLP_ghost s)) (after QDLP.onFIFO (QDLP.initFIFO 10 4 9 1) [.get ⟨1, 3, -2⟩, .get ⟨2, 2, -2⟩, .evict ⟨0, 0, -2⟩, .get ⟨3, 1, -2⟩]) = (2, [1]) := by decide +kernel

/-- C47: the hits counted for the objects of the small queue are those the client saw. -/
theorem C47_hitsCounted_QDLPFIFO (cs fs gs : Nat) (thr : Int) (h : fs ≤ cs) (p : Perms) (ok : Req → Prop) (hok : QDLP.Fits cs fs p ok) (ops : List Op) (out : List Bool) (s : QDLP.State FIFO.State)
    (ho : ∀ op ∈ ops, Calls p ok op) (hr : Reaches QDLP.onFIFO (QDLP.initFIFO cs fs gs thr) ops out s) :
    ∀ o ∈ s.fifo.objs, o.miscFreq = (hitsSince (ops.zip out) o.id : Int) :=
  QDLP.hitsCounted (MainCache.fifo (cs - fs)) hok ⟨QInv.init (cs - fs) 0 .none, rfl⟩ rfl h ops out s ho hr

example : (after QDLP.onFIFO (QDLP.initFIFO 10 4 9 1) [.get ⟨1, 3, -2⟩, .get ⟨1, 3, -2⟩, .find ⟨1, 3, -2⟩ true]).fifo.objs.map (·.miscFreq) = [2] := by decide +kernel

/-- C47: what one call of `evict` does.  If the small queue holds no bytes, the main cache evicts.  Otherwise the oldest object of the small queue
leaves it: hit at least `thr` times since it entered, it is requested from the main cache; hit less often, it leaves the cache and is
remembered in the ghost queue, if there is one and it would fit. -/
theorem C47_evict_QDLPFIFO (cs fs gs : Nat) (thr : Int) (h : fs ≤ cs) (p : Perms) (ok : Req → Prop) (hok : QDLP.Fits cs fs p ok) (ops : List Op) (out : List Bool) (s : QDLP.State FIFO.State)
    (ho : ∀ op ∈ ops, Calls p ok op) (hr : Reaches QDLP.onFIFO (QDLP.initFIFO cs fs gs thr) ops out s)
    (hpos : 0 < bytes 0 (QDLPFIFO_cached s) ∨ (p.ev = true ∧ QDLPFIFO_cached s ≠ [])) (r : Req) :
    ∃ s', QDLP.onFIFO.evict s r = .ok s' ∧
      (bytes 0 (cont s.fifo.objs) = 0 → s'.fifo = s.fifo ∧ s'.ghost = s.ghost ∧ FIFO.algo.evict s.main r = .ok s'.main ∧
        ∃ v, s.main.base.cached.Perm (v :: s'.main.base.cached)) ∧
      (0 < bytes 0 (cont s.fifo.objs) → ∃ l o, s.fifo.objs = l ++ [o] ∧ s'.fifo.objs = l ∧
        ((hitsSince (ops.zip out) o.id : Int) ≥ thr → s'.ghost = s.ghost ∧ FIFO.algo.get s.main o.toReq = .ok (false, s'.main)) ∧
        ((hitsSince (ops.zip out) o.id : Int) < thr → s'.main = s.main ∧ (0 < gs → o.size ≤ gs → o.id ∈ QDLP_ghost s'))) :=
  QDLP.evictRule (MainCache.fifo (cs - fs)) hok ⟨QInv.init (cs - fs) 0 .none, rfl⟩ rfl h ops out s ho hr hpos r

/-- the three cases: demoted, promoted, evicted from the main cache -/
example : (fun s => (QDLP_small s, s.main.base.cached.ids, QDLP_ghost s)) (after QDLP.onFIFO (QDLP.initFIFO 10 4 9 1) [.get ⟨1, 3, -2⟩, .get ⟨2, 2, -2⟩, .evict ⟨0, 0, -2⟩]) = ([2], [], [1]) := by decide +kernel
example : (fun s => (QDLP_small s, s.main.base.cached.ids, QDLP_ghost s)) (after QDLP.onFIFO (QDLP.initFIFO 10 4 9 1) [.get ⟨1, 3, -2⟩, .get ⟨1, 3, -2⟩, .get ⟨2, 2, -2⟩, .evict ⟨0, 0, -2⟩]) = ([2], [1], []) := by decide +kernel
example : (fun s => (QDLP_small s, s.main.base.cached.ids, QDLP_ghost s)) (after QDLP.onFIFO (QDLP.initFIFO 10 4 9 1) [.get ⟨1, 3, -2⟩, .get ⟨1, 3, -2⟩, .evict ⟨0, 0, -2⟩, .evict ⟨0, 0, -2⟩]) = ([], [], []) := by decide +kernel

/-- C47: where a missed object goes.  A remembered one that fits the small queue goes into the main cache; any other that is smaller than the small queue becomes
its youngest object, and the objects that left the small queue meanwhile are its oldest; one exactly as large as the small queue is not cached. -/
theorem C47_placed_QDLPFIFO (cs fs gs : Nat) (thr : Int) (h : fs ≤ cs) (p : Perms) (ok : Req → Prop) (hok : QDLP.Fits cs fs p ok) (ops : List Op) (out : List Bool) (s : QDLP.State FIFO.State)
    (ho : ∀ op ∈ ops, Calls p ok op) (hr : Reaches QDLP.onFIFO (QDLP.initFIFO cs fs gs thr) ops out s) (r : Req) (hor : ok r) (s' : QDLP.State FIFO.State)
    (hg : QDLP.onFIFO.get s r = .ok (false, s')) :
    (r.size ≤ fs → r.id ∈ QDLP_ghost s → r.id ∈ s'.main.base.cached.ids) ∧
    (r.size < fs → r.id ∉ QDLP_ghost s → ∃ l l', QDLP_small s' = r.id :: l ∧ QDLP_small s = l ++ l') ∧
    (r.size = fs → r.id ∉ QDLP_ghost s → r.id ∉ (QDLPFIFO_cached s').ids) :=
  QDLP.placed (MainCache.fifo (cs - fs)) hok ⟨QInv.init (cs - fs) 0 .none, rfl⟩ rfl h ops out s ho hr r hor s' hg

/-- a remembered object -/
example : (fun s => (QDLP_small s, s.main.base.cached.ids, QDLP_ghost s)) (after QDLP.onFIFO (QDLP.initFIFO 10 4 9 1) [.get ⟨1, 3, -2⟩, .evict ⟨0, 0, -2⟩, .get ⟨1, 3, -2⟩, .get ⟨2, 3, -2⟩]) = ([2], [1], []) := by decide +kernel

/-! ## What fails -/

/-- C09 fails when the small queue is larger than the main cache: a request for a remembered object that fits the small queue but not the main cache
makes `insert` dereference the object that the main cache did not take (QDLP.c:285-304). -/
theorem C09_safe_fails_QDLP :
    faultOf QDLP.onClock (QDLP.initClock 10 6 20 1 3) [.get ⟨1, 5, -2⟩, .get ⟨2, 5, -2⟩, .get ⟨3, 5, -2⟩, .get ⟨1, 5, -2⟩] = some .nullDeref := by decide +kernel

/-- C09 fails for a client `evict` when all cached objects have size 0: the main cache, which is empty, is asked to evict. -/
theorem C09_evictEmptyMain_fails_QDLP :
    faultOf QDLP.onClock (QDLP.initClock 10 4 9 1 3) [.get ⟨1, 0, -2⟩, .evict ⟨0, 0, -2⟩] = some .nullDeref := by decide +kernel

/-- C09 fails for a client insert of an object larger than the main cache after a ghost hit that was not admitted. -/
theorem C09_insertLarge_fails_QDLP :
    faultOf QDLP.onClock (QDLP.initClock 10 4 9 1 3) [.get ⟨1, 3, -2⟩, .evict ⟨0, 0, -2⟩, .get ⟨1, 5, -2⟩, .insert ⟨2, 7, -2⟩] = some .nullDeref := by decide +kernel

/-- C05 fails for an object as large as the small queue: `can_insert` accepts it, `insert` drops it. -/
theorem C05_admittedMissCached_fails_QDLP :
    ¬ AdmittedMissCached QDLP.onClock QDLPClock_cached (fun s r => (QDLP.onClock.canInsert s r).1) (QDLP.initClock 10 4 9 1 3) (Calls {} (fun _ => True)) := by
  intro h
  obtain ⟨s', h1, h2⟩ := h [] [] _ (by simp) rfl ⟨1, 4, -2⟩ trivial (by decide) (by decide)
  have h1' : QDLP.onClock.get (QDLP.initClock 10 4 9 1 3) ⟨1, 4, -2⟩ = .ok (false, { QDLP.initClock 10 4 9 1 3 with nReq := 1 }) := rfl
  rw [h1'] at h1
  cases h1
  revert h2
  decide

/-- the calls of the next theorem -/
def QDLP_tight : List Op := [.get ⟨1, 3, -2⟩, .evict ⟨0, 0, -2⟩, .get ⟨2, 3, -2⟩, .evict ⟨0, 0, -2⟩, .get ⟨1, 3, -2⟩]

/-- C06 fails: a request for a remembered object evicts from the main cache although 3 of 10 bytes are used. -/
theorem C06_evictOnDemand_fails_QDLP :
    ¬ EvictOnDemand QDLP.onClock QDLPClock_cached (QDLP.initClock 10 5 20 1 3) (Calls {} (fun _ => True)) 10 0 := by
  intro h
  have hr : Reaches QDLP.onClock (QDLP.initClock 10 5 20 1 3) QDLP_tight [false, true, false, true, false] (after QDLP.onClock (QDLP.initClock 10 5 20 1 3) QDLP_tight) :=
    reaches_after (by decide +kernel)
  have hg : QDLP.onClock.get (after QDLP.onClock (QDLP.initClock 10 5 20 1 3) QDLP_tight) ⟨2, 3, -2⟩ =
      .ok (false, after QDLP.onClock (after QDLP.onClock (QDLP.initClock 10 5 20 1 3) QDLP_tight) [.get ⟨2, 3, -2⟩]) := get_after (by decide +kernel)
  obtain ⟨victims, kept, h1, h2, h3⟩ := (h _ _ _ (by intro op hop; simp only [QDLP_tight, List.mem_cons, List.not_mem_nil, or_false] at hop; rcases hop with rfl | rfl | rfl | rfl | rfl <;> simp [Calls]) hr _ _ _ trivial hg).2 rfl
  have e1 : QDLPClock_cached (after QDLP.onClock (QDLP.initClock 10 5 20 1 3) QDLP_tight) = [(1, 3)] := by decide +kernel
  have e2 : QDLPClock_cached (after QDLP.onClock (after QDLP.onClock (QDLP.initClock 10 5 20 1 3) QDLP_tight) [.get ⟨2, 3, -2⟩]) = [(2, 3)] := by decide +kernel
  rw [e1] at h1
  rw [e2] at h2
  have hk : kept = [] := by
    rcases h2 with h2 | h2
    · have := h1.symm.subset (List.mem_append_right victims (h2.subset (by simp : (2, 3) ∈ [(2, 3)])))
      simp at this
    · have := h2.length_eq
      simp only [List.length_cons, List.length_nil] at this
      exact List.length_eq_zero_iff.1 (by omega)
  subst hk
  rw [List.append_nil] at h1
  have := List.perm_singleton.1 h1.symm
  have := h3 [] (1, 3) this
  revert this
  decide

/-- C07 fails for the answer: removing an object that is only in the ghost queue answers `true`. -/
theorem C07_removeExact_fails_QDLP :
    answers QDLP.onClock (QDLP.initClock 10 4 9 1 3) [.get ⟨1, 3, -2⟩, .evict ⟨0, 0, -2⟩, .find ⟨1, 3, -2⟩ false, .remove 1] = some [false, true, false, true] := by decide +kernel

/-- C09: `evict` on a non-empty cache may evict nothing: it may move an object to the main cache. -/
theorem C09_evictsOne_fails_QDLP :
    answers QDLP.onClock (QDLP.initClock 10 4 9 1 3) [.get ⟨1, 3, -2⟩, .get ⟨1, 3, -2⟩, .evict ⟨0, 0, -2⟩, .find ⟨1, 3, -2⟩ false] = some [false, true, true, true] := by decide +kernel

end Verif.Props
