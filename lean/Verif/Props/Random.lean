import Verif.Proof.Random
import Verif.Props.Demo
/-!
# Properties of Random (libCacheSim/cache/eviction/Random.c)

The statements are those of `Verif/Spec/Cache.lean`; here they are instantiated for Random and proved.  They hold for
every cache size, every metadata size, every admission policy and every sequence of client calls, and every sequence of random choices.
-/

namespace Verif.Props
open Verif Verif.Spec
set_option linter.unusedVariables false

/-- what Random has cached -/
abbrev Random_cached (s : Random.State) : Contents := s.base.cached

/-- The state after the demo calls on a cache of 10 bytes. -/
def Random_demo : Random.State :=
  match Random.algo.run (Random.init 10 0 .none demoPicks) demo with
  | .ok p => p.2
  | .error _ => Random.init 10 0 .none demoPicks

/-- The demo calls are permitted, run, and hit/miss as listed; the state they lead to is `Random_demo`. -/
theorem Random_demo_reached : Reaches Random.algo (Random.init 10 0 .none demoPicks) demo
    [false, false, true, false, false, true, true, false, false, false, false, true, false, false, true, true, true] Random_demo ∧
    Random_cached Random_demo = [(8, 1), (5, 1), (3, 3), (1, 4)] := ⟨rfl, by decide⟩

theorem C01_capacity_Random (cs md : Nat) (adm : Adm) (picks : List Nat) :
    Capacity Random.algo (Random.init cs md adm picks) (Calls {} (SizeOk md)) cs :=
  (Random.strong cs md).capacity (Rand.inv_init cs md adm picks)

example : Random.algo.occ Random_demo > 0 := by decide

theorem C02_accounting_Random (cs md : Nat) (adm : Adm) (picks : List Nat) :
    Accounting Random.algo Random_cached (Random.init cs md adm picks) (Calls {} (SizeOk md)) md :=
  (Random.strong cs md).accounting (Rand.inv_init cs md adm picks)

example : Random.algo.nObj Random_demo > 1 := by decide

theorem C03_hitIffCached_Random (cs md : Nat) (adm : Adm) (picks : List Nat) :
    HitIffCached Random.algo Random_cached (Random.init cs md adm picks) (Calls {} (SizeOk md)) :=
  (Random.strong cs md).hitIffCached (Rand.inv_init cs md adm picks)

theorem C04_noPhantom_Random (cs md : Nat) (adm : Adm) (picks : List Nat) :
    NoPhantom Random.algo Random_cached (Random.init cs md adm picks) (Calls {} (SizeOk md)) :=
  (Random.strong cs md).noPhantom (Rand.inv_init cs md adm picks) rfl

theorem C04_addsOnlyRequested_Random (cs md : Nat) (adm : Adm) (picks : List Nat) :
    AddsOnlyRequested Random.algo Random_cached (Random.init cs md adm picks) (Calls {} (SizeOk md)) :=
  (Random.strong cs md).addsOnlyRequested (Rand.inv_init cs md adm picks)

theorem C05_admittedMissCached_Random (cs md : Nat) (adm : Adm) (picks : List Nat) :
    AdmittedMissCached Random.algo Random_cached (fun s r => admitsBase s.base r) (Random.init cs md adm picks)
      (Calls {} (SizeOk md)) :=
  (Random.strong cs md).admittedMissCached (Rand.inv_init cs md adm picks)

/-- an admitted miss that needs several evictions -/
example : (7 ∉ (Random_cached Random_demo).ids ∧ admitsBase Random_demo.base ⟨7, 9, -2⟩ = true) := by decide

theorem C06_evictOnDemand_Random (cs md : Nat) (adm : Adm) (picks : List Nat) :
    EvictOnDemand Random.algo Random_cached (Random.init cs md adm picks) (Calls {} (SizeOk md)) cs md :=
  (Random.strong cs md).evictOnDemand (Rand.inv_init cs md adm picks)

theorem C07_removeExact_Random (cs md : Nat) (adm : Adm) (picks : List Nat) :
    RemoveExact Random.algo Random_cached (Random.init cs md adm picks) (Calls {} (SizeOk md)) :=
  (Random.spec cs md).removeExact (Random.strong cs md) (Rand.inv_init cs md adm picks)

/-- `core` is the whole state but the request counter and the admission policy's state. -/
theorem C08_rejectQuiet_Random (cs md : Nat) (adm : Adm) (picks : List Nat) :
    RejectQuiet Random.algo Random_cached (fun s r => admitsBase s.base r) Rand.core (Random.init cs md adm picks)
      (Calls {} (SizeOk md)) :=
  (Random.strong cs md).rejectQuiet (Rand.inv_init cs md adm picks)

/-- a rejected request -/
example : (7 ∉ (Random_cached Random_demo).ids ∧ admitsBase Random_demo.base ⟨7, 11, -2⟩ = false) := by decide

theorem C09_safe_Random (cs md : Nat) (adm : Adm) (picks : List Nat) :
    Safe Random.algo (Random.init cs md adm picks) (Calls {} (SizeOk md)) :=
  (Random.strong cs md).safe (Rand.inv_init cs md adm picks)

theorem C09_evictsOne_Random (cs md : Nat) (adm : Adm) (picks : List Nat) :
    EvictsOne Random.algo Random_cached (Random.init cs md adm picks) (Calls {} (SizeOk md)) :=
  (Random.spec cs md).evictsOne (Random.strong cs md) (Rand.inv_init cs md adm picks) rfl

/-! ## C20 -/

/-- C20.  `evict` removes exactly the object drawn. -/
theorem C20_evictsDrawn_Random (cs md : Nat) (adm : Adm) (picks : List Nat) (ops : List Op) (out : List Bool) (s : Random.State)
    (ho : ∀ op ∈ ops, Calls {} (SizeOk md) op) (h : Reaches Random.algo (Random.init cs md adm picks) ops out s) (hne : Random_cached s ≠ []) (r : Req) :
    ∃ v s', Random.algo.evict s r = .ok s' ∧ (Random_cached s).Perm (v :: Random_cached s') ∧ Rand.sampled (Random_cached s) s.picks 1 = [v] := by
  have hi := (Random.strong cs md).reach (Rand.inv_init cs md adm picks) ho h
  have hne' : s.base.tbl ≠ [] := by intro e; simp [Random_cached, Base.cached, e] at hne
  obtain ⟨s', o, h1, h2, h3, _⟩ := Rand.evicts1.ok hi hne'
  obtain ⟨b', g1, g2, _, _, g5, _⟩ := BInv.remove hi (lookup_of_mem hi.inv.nodup (Rand.draws_mem h3))
  rw [g1] at h2
  have hb : b' = s'.base := by cases h2; rfl
  subst hb
  refine ⟨(o.id, o.size), s', h1, g5, ?_⟩
  have hl := (Rand.randObjs_spec 1 hne').2
  rw [← Rand.draws_sampled]
  obtain ⟨x, hx⟩ := List.length_eq_one_iff.1 hl
  rw [hx] at h3 ⊢
  simp at h3
  simp [h3]

/-- Every cached object can be the victim: for each there is a number to draw that makes `evict` remove it. -/
theorem C20_anyVictim_Random (cs md : Nat) (adm : Adm) (picks : List Nat) (ops : List Op) (out : List Bool) (s : Random.State)
    (ho : ∀ op ∈ ops, Calls {} (SizeOk md) op) (h : Reaches Random.algo (Random.init cs md adm picks) ops out s) (v : ObjId × Nat)
    (hv : v ∈ Random_cached s) (r : Req) :
    ∃ n s', Random.algo.evict { s with picks := n :: s.picks } r = .ok s' ∧ (Random_cached s).Perm (v :: Random_cached s') := by
  have hi := (Random.strong cs md).reach (Rand.inv_init cs md adm picks) ho h
  obtain ⟨o, ho, rfl⟩ := List.mem_map.1 hv
  obtain ⟨n, hn, e⟩ := List.getElem_of_mem ho
  have hne' : s.base.tbl ≠ [] := List.ne_nil_of_mem ho
  obtain ⟨s', o', h1, h2, h3, _⟩ := Rand.evicts1.ok (s := { s with picks := n :: s.picks }) hi hne'
  obtain ⟨b', g1, g2, _, _, g5, _⟩ := BInv.remove hi (lookup_of_mem hi.inv.nodup (Rand.draws_mem (s := { s with picks := n :: s.picks }) h3))
  have h2' : s.base.removeObjBase o'.id = .ok s'.base := h2
  rw [g1] at h2'
  have hb : b' = s'.base := by cases h2'; rfl
  subst hb
  have ho' : o' = o := by
    have hd : s.base.tbl[n % s.base.tbl.length]? = some o := by rw [Nat.mod_eq_of_lt hn, List.getElem?_eq_getElem hn, e]
    rw [Rand.draws_one (s := { s with picks := n :: s.picks }) (o := o) hd] at h3
    simpa using h3
  subst ho'
  exact ⟨n, s', h1, g5⟩

/-! ## C10 fails -/

/-- C10 fails.  `to_evict` draws a random object and `evict` draws again: here `to_evict` names object 2 and the `evict` that follows removes
object 1. -/
theorem C10_toEvict_fails_Random : ∃ s o s1 s2, Random.algo.run (Random.init 10 0 .none [0, 1]) [.get ⟨1, 1, -2⟩, .get ⟨2, 1, -2⟩] = .ok ([false, false], s) ∧
    Rand.randObj s = .ok (o, s1) ∧ o.id = 2 ∧ Random.algo.evict s1 ⟨3, 1, -2⟩ = .ok s2 ∧ Random_cached s2 = [(2, 1)] := by
  refine ⟨_, _, _, _, rfl, rfl, rfl, rfl, ?_⟩
  decide

/-- C09 fails on an empty cache: `evict` draws forever. -/
theorem C09_evictEmpty_fails_Random (cs md : Nat) (adm : Adm) (picks : List Nat) (r : Req) :
    Random.algo.evict (Random.init cs md adm picks) r = .error .diverge := rfl

end Verif.Props
