import Verif.Proof.Belady
import Verif.Proof.LRU
import Verif.Props.Demo
/-!
# Properties of Belady (libCacheSim/cache/eviction/Belady.c)

The statements are those of `Verif/Spec/Cache.lean`; here they are instantiated for Belady and proved.  They hold for
every cache size, every metadata size, every admission policy and every sequence of client calls in which no request has the next access
time -1 (the code aborts on it).
-/

namespace Verif.Props
open Verif Verif.Spec
set_option linter.unusedVariables false

/-- what Belady has cached -/
abbrev Belady_cached (s : Belady.State) : Contents := s.base.cached

/-- The state after the demo calls on a cache of 10 bytes. -/
def Belady_demo : Belady.State :=
  match Belady.algo.run (Belady.init 10 0 .none) demoNext with
  | .ok p => p.2
  | .error _ => Belady.init 10 0 .none

/-- The demo calls are permitted, run, and hit/miss as listed; the state they lead to is `Belady_demo`. -/
theorem Belady_demo_reached : Reaches Belady.algo (Belady.init 10 0 .none) demoNext
    [false, false, true, false, false, false, true, false, true, true, false, true, false, false, true, true, true] Belady_demo ∧
    Belady_cached Belady_demo = [(8, 1), (6, 1), (2, 3), (1, 4)] := ⟨rfl, by decide⟩

theorem C01_capacity_Belady (cs md : Nat) (adm : Adm) :
    Capacity Belady.algo (Belady.init cs md adm) (Calls {} (Belady.Ok md)) cs :=
  (Belady.strong cs md).capacity (PQCache.inv_init cs md adm)

example : Belady.algo.occ Belady_demo > 0 := by decide

theorem C02_accounting_Belady (cs md : Nat) (adm : Adm) :
    Accounting Belady.algo Belady_cached (Belady.init cs md adm) (Calls {} (Belady.Ok md)) md :=
  (Belady.strong cs md).accounting (PQCache.inv_init cs md adm)

example : Belady.algo.nObj Belady_demo > 1 := by decide

theorem C03_hitIffCached_Belady (cs md : Nat) (adm : Adm) :
    HitIffCached Belady.algo Belady_cached (Belady.init cs md adm) (Calls {} (Belady.Ok md)) :=
  (Belady.strong cs md).hitIffCached (PQCache.inv_init cs md adm)

theorem C04_noPhantom_Belady (cs md : Nat) (adm : Adm) :
    NoPhantom Belady.algo Belady_cached (Belady.init cs md adm) (Calls {} (Belady.Ok md)) :=
  (Belady.strong cs md).noPhantom (PQCache.inv_init cs md adm) rfl

theorem C04_addsOnlyRequested_Belady (cs md : Nat) (adm : Adm) :
    AddsOnlyRequested Belady.algo Belady_cached (Belady.init cs md adm) (Calls {} (Belady.Ok md)) :=
  (Belady.strong cs md).addsOnlyRequested (PQCache.inv_init cs md adm)

theorem C05_admittedMissCached_Belady (cs md : Nat) (adm : Adm) :
    AdmittedMissCached Belady.algo Belady_cached (fun s r => admitsBase s.base r) (Belady.init cs md adm)
      (Calls {} (Belady.Ok md)) :=
  (Belady.strong cs md).admittedMissCached (PQCache.inv_init cs md adm)

/-- an admitted miss that needs several evictions -/
example : (7 ∉ (Belady_cached Belady_demo).ids ∧ admitsBase Belady_demo.base ⟨7, 9, -2⟩ = true) := by decide

theorem C06_evictOnDemand_Belady (cs md : Nat) (adm : Adm) :
    EvictOnDemand Belady.algo Belady_cached (Belady.init cs md adm) (Calls {} (Belady.Ok md)) cs md :=
  (Belady.strong cs md).evictOnDemand (PQCache.inv_init cs md adm)

theorem C07_removeExact_Belady (cs md : Nat) (adm : Adm) :
    RemoveExact Belady.algo Belady_cached (Belady.init cs md adm) (Calls {} (Belady.Ok md)) :=
  (Belady.spec cs md).removeExact (Belady.strong cs md) (PQCache.inv_init cs md adm)

/-- `core` is the whole state but the request counter and the admission policy's state. -/
theorem C08_rejectQuiet_Belady (cs md : Nat) (adm : Adm) :
    RejectQuiet Belady.algo Belady_cached (fun s r => admitsBase s.base r) PQCache.core (Belady.init cs md adm)
      (Calls {} (Belady.Ok md)) :=
  (Belady.strong cs md).rejectQuiet (PQCache.inv_init cs md adm)

/-- a rejected request -/
example : (7 ∉ (Belady_cached Belady_demo).ids ∧ admitsBase Belady_demo.base ⟨7, 11, -2⟩ = false) := by decide

theorem C09_safe_Belady (cs md : Nat) (adm : Adm) :
    Safe Belady.algo (Belady.init cs md adm) (Calls {} (Belady.Ok md)) :=
  (Belady.strong cs md).safe (PQCache.inv_init cs md adm)

theorem C09_evictsOne_Belady (cs md : Nat) (adm : Adm) :
    EvictsOne Belady.algo Belady_cached (Belady.init cs md adm) (Calls {} (Belady.Ok md)) :=
  (Belady.spec cs md).evictsOne (Belady.strong cs md) (PQCache.inv_init cs md adm) rfl

theorem C10_toEvictPredicts_Belady (cs md : Nat) (adm : Adm) :
    ToEvictPredicts Belady.algo Belady_cached Belady.toEvict (Belady.init cs md adm) (Calls {} (Belady.Ok md)) :=
  (Belady.spec cs md).toEvictPredicts (Belady.strong cs md) (PQCache.inv_init cs md adm) Belady.toEvict
    (fun hi hne _ => Belady.toEvict_spec hi hne)

example : Belady_cached Belady_demo ≠ [] ∧ Belady.toEvict Belady_demo = some 2 := by decide

/-! ## C19: the object used furthest in the future goes first -/

/-- The calls permitted, with next access times that a `double` represents exactly (or `INT64_MAX`). -/
def exactNext (md : Nat) (op : Op) : Prop :=
  Calls {} (Belady.Ok md) op ∧ ∀ b r, presents op b = some r → ExactDbl r.next

/-- C19.  `evict` removes an object with the largest next access time, going by the latest request for each cached object. -/
theorem C19_evictsFurthest_Belady (cs md : Nat) (adm : Adm) :
    EvictsTop Belady.algo Belady_cached (fun r => r.next) (Belady.init cs md adm) (exactNext md) := by
  intro ops out s ho h hne r
  obtain ⟨v, s', rv, h1, h2, h3, h4⟩ := PQCache.evictsTop cs md Belady.key Belady.insert (Belady.Ok md) (fun _ h => h.1) Belady.insert_ok
    adm ops out s (fun op hop => (ho op hop).1) h hne r
  refine ⟨v, s', rv, h1, h2, h3, fun x hx => ?_⟩
  obtain ⟨rx, h5, h6⟩ := h4 x hx
  refine ⟨rx, h5, ?_⟩
  have ex : ∀ {id r}, latest (ops.zip out) id = some r → ExactDbl r.next := by
    intro id r hl
    obtain ⟨op, hop, b, hb⟩ := latest_presents hl
    exact (ho op hop).2 b r hb
  exact (ex h5).le_of_dbl (ex h3) h6

/-- Without the bound on the times: the priority is a `double`, so two times above 2^53 may be confused, but never reversed. -/
theorem C19_neverReversed_Belady (cs md : Nat) (adm : Adm) :
    EvictsTop Belady.algo Belady_cached (fun r => dbl r.next) (Belady.init cs md adm) (Calls {} (Belady.Ok md)) ∧ Monotone dbl :=
  ⟨PQCache.evictsTop cs md Belady.key Belady.insert (Belady.Ok md) (fun _ h => h.1) Belady.insert_ok adm, dbl_mono⟩

/-- Times above 2^53 are confused: of two objects used at 2^53+1 and 2^53 the one used earlier is evicted. -/
theorem C19_aboveExact_fails : ∃ s s', Belady.algo.run (Belady.init 10 0 .none) [.get ⟨1, 1, 9007199254740992⟩, .get ⟨2, 1, 9007199254740993⟩] =
      .ok ([false, false], s) ∧ Belady.algo.evict s ⟨3, 1, -2⟩ = .ok s' ∧ Belady_cached s' = [(2, 1)] := by
  refine ⟨(match Belady.algo.run (Belady.init 10 0 .none) [.get ⟨1, 1, 9007199254740992⟩, .get ⟨2, 1, 9007199254740993⟩] with | .ok p => p.2 | .error _ => Belady.init 10 0 .none),
    (match Belady.algo.run (Belady.init 10 0 .none) [.get ⟨1, 1, 9007199254740992⟩, .get ⟨2, 1, 9007199254740993⟩, .evict ⟨3, 1, -2⟩] with | .ok p => p.2 | .error _ => Belady.init 10 0 .none),
    rfl, rfl, by decide⟩

example : latest (demoNext.zip [false, false, true, false, false, false, true, false, true, true, false, true, false, false, true, true, true]) 2 =
    some ⟨2, 3, 30⟩ := by decide
example : ∀ op ∈ demoNext, exactNext 0 op := by
  intro op hop
  simp only [demoNext, List.mem_cons, List.not_mem_nil, or_false] at hop
  rcases hop with rfl | rfl | rfl | rfl | rfl | rfl | rfl | rfl | rfl | rfl | rfl | rfl | rfl | rfl | rfl | rfl | rfl <;>
    refine ⟨by simp [Calls, Belady.Ok, SizeOk, u32], fun b r hb => ?_⟩ <;>
    cases b <;> simp [presents] at hb <;> subst hb <;> simp [ExactDbl]

/-- A next access time of -1, which the comment in the code tells users not to pass, aborts. -/
theorem C09_minusOne_fails_Belady : Belady.algo.run (Belady.init 10 0 .none) [.get ⟨1, 1, -1⟩] = .error .abort := rfl

/-! ## C18: Belady is optimal -/

/-- C18.  A trace of objects of one size `sz`, each request carrying the true time of the next request for the object (times increase along the
trace and stay within 2^53).  `k` objects fit into the cache.  Belady's hits can be achieved by demand paging with `k` objects, and no way of
demand paging with `k` objects gets more. -/
theorem C18_optimal_Belady (cs md sz : Nat) (vt : Nat → Int) (trace : List Req) (hu : 0 < sz + md) (hfit : sz + md ≤ cs) (hsm : sz + md < u32)
    (hsz : ∀ r ∈ trace, r.size = sz) (hann : Annotated vt 0 trace) (hvt : ∀ i j, i < j → vt i < vt j) (h0 : 0 ≤ vt 0)
    (hmax : ∀ i, i < trace.length → vt i ≤ 9007199254740992) :
    ∃ out s, Belady.algo.gets (Belady.init cs md .none) trace = .ok (out, s) ∧
      Play (cs / (sz + md)) ∅ (trace.map Req.id) (out.count true) ∧
      ∀ hits, Play (cs / (sz + md)) ∅ (trace.map Req.id) hits → hits ≤ out.count true := by
  have hm : StrictMono vt := fun i j h => hvt i j h
  obtain ⟨out, s, h1, h2, h3⟩ := Belady.optimal ⟨hm, fun t => h0.trans (hm.monotone (Nat.zero_le t))⟩ hu hfit hsm trace 0 (Belady.init cs md .none)
    ⟨PQCache.inv_init cs md .none, rfl, by simp [Belady.init, PQCache.init, Base.init, Base.cached]⟩ hsz hann (by simpa using hmax)
    (by simp [Belady.ids, Belady.init, PQCache.init, Base.init, Base.cached])
  refine ⟨out, s, h1, h2, fun hits hp => ?_⟩
  have := h3 0 ∅ (by simp) (le_refl _) (by intro τ _; simp [cnt, Belady.ids, Belady.init, PQCache.init, Base.init, Base.cached]) hits hp
  omega

/-- a trace that needs lookahead: 1 2 3 1 2 3 1 on a cache for two objects of size 5; LRU would have no hit, Belady has two -/
def beladyTrace : List Req := [⟨1, 5, 3⟩, ⟨2, 5, 4⟩, ⟨3, 5, 5⟩, ⟨1, 5, 6⟩, ⟨2, 5, int64Max⟩, ⟨3, 5, int64Max⟩, ⟨1, 5, int64Max⟩]

example : Annotated (fun i => i) 0 beladyTrace ∧ (∀ r ∈ beladyTrace, r.size = 5) ∧
    (Belady.algo.gets (Belady.init 10 0 .none) beladyTrace).map Prod.fst = .ok [false, false, false, true, false, true, false] :=
  ⟨by simp only [Annotated, beladyTrace]; decide, by decide, rfl⟩
example : (LRU.algo.gets (LRU.init 10 0 .none) beladyTrace).map Prod.fst = .ok [false, false, false, false, false, false, false] := rfl

/- The bound is about caches that keep a missed object: with the right to ignore a request one can do better.  On 1 2 1 with room for one object
Belady has no hit, a cache that ignores the request for 2 has one. -/
example : (Belady.algo.gets (Belady.init 1 0 .none) [⟨1, 1, 2⟩, ⟨2, 1, int64Max⟩, ⟨1, 1, int64Max⟩]).map Prod.fst = .ok [false, false, false] := rfl

end Verif.Props
