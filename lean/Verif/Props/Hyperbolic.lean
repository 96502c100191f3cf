import Verif.Proof.Sampled
import Verif.Props.Demo
/-!
# Properties of Hyperbolic (libCacheSim/cache/eviction/Hyperbolic.c)

The random choices (`picks`), the rounding of doubles (`R`) and the number `n` of objects sampled per eviction are arbitrary.  The statements
hold when the client calls `get`, `find` without update and `remove`.  An `evict` by the client can crash, see the `_fails` theorems.
-/

namespace Verif.Props
open Verif Verif.Spec
set_option linter.unusedVariables false

/-- what Hyperbolic has cached -/
abbrev Hyperbolic_cached (s : Hyperbolic.State) : Contents := s.base.cached

/-- the calls considered -/
abbrev Hyperbolic.calls : Perms := { upd := false, ins := false, ev := false }

/-- The demo calls that are permitted here. -/
def Hyperbolic_calls : List Op := demo.filter (fun op => match op with | .insert _ => false | .evict _ => false | .find _ u => !u | _ => true)

def Hyperbolic_demo : Hyperbolic.State :=
  after (Hyperbolic.algo .exact 2) (Hyperbolic.init 10 0 .none [7, 3, 12, 0, 5, 2, 8, 3, 4]) Hyperbolic_calls

theorem Hyperbolic_demo_reached : (∀ op ∈ Hyperbolic_calls, Calls Hyperbolic.calls (SizeOk 0) op) ∧
    Reaches (Hyperbolic.algo .exact 2) (Hyperbolic.init 10 0 .none [7, 3, 12, 0, 5, 2, 8, 3, 4]) Hyperbolic_calls
      [false, false, true, false, false, true, false, false, false, false, true, false, false, true] Hyperbolic_demo ∧
    Hyperbolic_cached Hyperbolic_demo = [(6, 1), (5, 1), (2, 3), (3, 3)] := by
  refine ⟨?_, reaches_after (by decide +kernel), by decide +kernel⟩
  simp [Hyperbolic_calls, demo, Calls, SizeOk, u32]

theorem C01_capacity_Hyperbolic_partial (R : Hyperbolic.Rounding) (n : Nat) (hn : 0 < n) (cs md : Nat) (adm : Adm) (picks : List Nat) :
    Capacity (Hyperbolic.algo R n) (Hyperbolic.init cs md adm picks) (Calls Hyperbolic.calls (SizeOk md)) cs :=
  (Hyperbolic.strong R hn cs md).capacity (Hyperbolic.inv_init cs md adm picks)

example : (Hyperbolic.algo .exact 2).occ Hyperbolic_demo > 0 := by decide +kernel

theorem C02_accounting_Hyperbolic_partial (R : Hyperbolic.Rounding) (n : Nat) (hn : 0 < n) (cs md : Nat) (adm : Adm) (picks : List Nat) :
    Accounting (Hyperbolic.algo R n) Hyperbolic_cached (Hyperbolic.init cs md adm picks) (Calls Hyperbolic.calls (SizeOk md)) md :=
  (Hyperbolic.strong R hn cs md).accounting (Hyperbolic.inv_init cs md adm picks)

example : (Hyperbolic.algo .exact 2).nObj Hyperbolic_demo > 1 := by decide +kernel

theorem C03_hitIffCached_Hyperbolic_partial (R : Hyperbolic.Rounding) (n : Nat) (hn : 0 < n) (cs md : Nat) (adm : Adm) (picks : List Nat) :
    HitIffCached (Hyperbolic.algo R n) Hyperbolic_cached (Hyperbolic.init cs md adm picks) (Calls Hyperbolic.calls (SizeOk md)) :=
  (Hyperbolic.strong R hn cs md).hitIffCached (Hyperbolic.inv_init cs md adm picks)

theorem C04_noPhantom_Hyperbolic_partial (R : Hyperbolic.Rounding) (n : Nat) (hn : 0 < n) (cs md : Nat) (adm : Adm) (picks : List Nat) :
    NoPhantom (Hyperbolic.algo R n) Hyperbolic_cached (Hyperbolic.init cs md adm picks) (Calls Hyperbolic.calls (SizeOk md)) :=
  (Hyperbolic.strong R hn cs md).noPhantom (Hyperbolic.inv_init cs md adm picks) rfl

theorem C04_addsOnlyRequested_Hyperbolic_partial (R : Hyperbolic.Rounding) (n : Nat) (hn : 0 < n) (cs md : Nat) (adm : Adm) (picks : List Nat) :
    AddsOnlyRequested (Hyperbolic.algo R n) Hyperbolic_cached (Hyperbolic.init cs md adm picks) (Calls Hyperbolic.calls (SizeOk md)) :=
  (Hyperbolic.strong R hn cs md).addsOnlyRequested (Hyperbolic.inv_init cs md adm picks)

theorem C05_admittedMissCached_Hyperbolic_partial (R : Hyperbolic.Rounding) (n : Nat) (hn : 0 < n) (cs md : Nat) (adm : Adm) (picks : List Nat) :
    AdmittedMissCached (Hyperbolic.algo R n) Hyperbolic_cached (fun s r => admitsBase s.base r) (Hyperbolic.init cs md adm picks) (Calls Hyperbolic.calls (SizeOk md)) :=
  (Hyperbolic.strong R hn cs md).admittedMissCached (Hyperbolic.inv_init cs md adm picks)

/-- an admitted miss that needs evictions -/
example : 7 ∉ (Hyperbolic_cached Hyperbolic_demo).ids ∧ (fun s r => admitsBase s.base r) Hyperbolic_demo ⟨7, 9, -2⟩ = true := by decide +kernel

theorem C06_evictOnDemand_Hyperbolic_partial (R : Hyperbolic.Rounding) (n : Nat) (hn : 0 < n) (cs md : Nat) (adm : Adm) (picks : List Nat) :
    EvictOnDemand (Hyperbolic.algo R n) Hyperbolic_cached (Hyperbolic.init cs md adm picks) (Calls Hyperbolic.calls (SizeOk md)) cs md :=
  (Hyperbolic.strong R hn cs md).evictOnDemand (Hyperbolic.inv_init cs md adm picks)

theorem C07_removeExact_Hyperbolic_partial (R : Hyperbolic.Rounding) (n : Nat) (hn : 0 < n) (cs md : Nat) (adm : Adm) (picks : List Nat) :
    RemoveExact (Hyperbolic.algo R n) Hyperbolic_cached (Hyperbolic.init cs md adm picks) (Calls Hyperbolic.calls (SizeOk md)) :=
  (Hyperbolic.spec R hn cs md).removeExact (Hyperbolic.strong R hn cs md) rfl (Hyperbolic.inv_init cs md adm picks)

/-- `core` is the whole state but the request counter and the admission policy's state. -/
theorem C08_rejectQuiet_Hyperbolic_partial (R : Hyperbolic.Rounding) (n : Nat) (hn : 0 < n) (cs md : Nat) (adm : Adm) (picks : List Nat) :
    RejectQuiet (Hyperbolic.algo R n) Hyperbolic_cached (fun s r => admitsBase s.base r) Hyperbolic.core (Hyperbolic.init cs md adm picks) (Calls Hyperbolic.calls (SizeOk md)) :=
  (Hyperbolic.strong R hn cs md).rejectQuiet (Hyperbolic.inv_init cs md adm picks)

/-- a rejected request -/
example : 7 ∉ (Hyperbolic_cached Hyperbolic_demo).ids ∧ (fun s r => admitsBase s.base r) Hyperbolic_demo ⟨7, 11, -2⟩ = false := by decide +kernel

theorem C09_safe_Hyperbolic_partial (R : Hyperbolic.Rounding) (n : Nat) (hn : 0 < n) (cs md : Nat) (adm : Adm) (picks : List Nat) :
    Safe (Hyperbolic.algo R n) (Hyperbolic.init cs md adm picks) (Calls Hyperbolic.calls (SizeOk md)) :=
  (Hyperbolic.strong R hn cs md).safe (Hyperbolic.inv_init cs md adm picks)

/-- C45: an admitted miss evicts, one after the other, objects whose accesses per time in the cache are lowest among `n` sampled objects.
The accesses and the time are those of the client's own calls.  (An object hit 2^23 - 1 times since it entered is excluded, see below.) -/
theorem C45_miss_Hyperbolic_partial (R : Hyperbolic.Rounding) (n : Nat) (hn : 0 < n) (cs md : Nat) (adm : Adm) (picks : List Nat)
    (ops : List Op) (out : List Bool) (s : Hyperbolic.State)
    (ho : ∀ op ∈ ops, Calls Hyperbolic.calls (SizeOk md) op) (h : Reaches (Hyperbolic.algo R n) (Hyperbolic.init cs md adm picks) ops out s)
    (hf : ∀ id, hitsSince (ops.zip out) id + 1 < 2 ^ 23) (hg : gets (ops.zip out) < 2 ^ 39)
    (r : Req) (hok : SizeOk md r) (hnot : r.id ∉ (Hyperbolic_cached s).ids) (ha : admitsBase s.base r = true) :
    ∃ s' vs kept, (Hyperbolic.algo R n).get s r = .ok (false, s') ∧
      Sample.Victims n (Sample.density R.rnd (ops.zip out)) (Hyperbolic_cached s) s.picks vs kept s'.picks ∧
      Hyperbolic_cached s' = (r.id, r.size % u32) :: kept :=
  Hyperbolic.get_miss R hn cs md adm picks ops out s ho h hf hg r hok hnot ha

/-- the densities in the demo (with exact arithmetic), and a miss that samples two objects -/
example : gets (Hyperbolic_calls.zip [false, false, true, false, false, true, false, false, false, false, true, false, false, true]) = 11 ∧
    (Hyperbolic_cached Hyperbolic_demo).map (fun x => Sample.density id (Hyperbolic_calls.zip [false, false, true, false, false, true, false, false, false, false, true, false, false, true]) x) = [100000000, 100000000 / 3, 20000000, 12500000] ∧
    Sample.sampled (Hyperbolic_cached Hyperbolic_demo) Hyperbolic_demo.picks 2 = [(6, 1), (3, 3)] := by
  refine ⟨?_, ?_, ?_⟩ <;> decide +kernel

/-- C45: whatever `to_evict` announces (in any state, after any calls), an `evict` right after it evicts. -/
theorem C45_toEvict_Hyperbolic_partial (R : Hyperbolic.Rounding) (n : Nat) (hn : 0 < n) (cs md : Nat) (adm : Adm) (picks : List Nat)
    (ops : List Op) (out : List Bool) (s s1 : Hyperbolic.State) (id : ObjId)
    (ho : ∀ op ∈ ops, Calls Hyperbolic.calls (SizeOk md) op) (h : Reaches (Hyperbolic.algo R n) (Hyperbolic.init cs md adm picks) ops out s)
    (ht : Hyperbolic.toEvict R n s = .ok (some id, s1)) (r : Req) :
    Hyperbolic_cached s1 = Hyperbolic_cached s ∧
    ∃ s' size, (Hyperbolic.algo R n).evict s1 r = .ok s' ∧ (Hyperbolic_cached s).Perm ((id, size) :: Hyperbolic_cached s') :=
  Hyperbolic.toEvict_evict ((Hyperbolic.strong R hn cs md).reach (Hyperbolic.inv_init cs md adm picks) ho h) ht

example : ∃ s1, Hyperbolic.toEvict .exact 2 Hyperbolic_demo = .ok (some 3, s1) := ⟨_, res_ok Hyperbolic_demo (by decide +kernel)⟩

/-- C45: an `evict` by the client crashes when all sampled objects entered with the latest request: their age is 0, so their score is
infinite and `to_evict` finds nothing. -/
theorem C45_evict_fails_Hyperbolic : ∃ (ops : List Op), (∀ op ∈ ops, Calls {} (SizeOk 0) op) ∧
    faultOf (Hyperbolic.algo .exact 64) (Hyperbolic.init 10 0 .none []) ops = some .nullDeref :=
  ⟨[.get ⟨1, 1, -2⟩, .evict ⟨0, 0, -2⟩], by simp [Calls, SizeOk, u32], by decide +kernel⟩

/-- C45: `to_evict`, then `remove` of the announced object, then `evict`: the object is used after it has been freed. -/
theorem C45_stale_fails_Hyperbolic : ∃ (s s1 s2 : Hyperbolic.State),
    Reaches (Hyperbolic.algo .exact 64) (Hyperbolic.init 10 0 .none []) [.get ⟨1, 1, -2⟩, .get ⟨2, 1, -2⟩, .get ⟨2, 1, -2⟩] [false, false, true] s ∧
    Hyperbolic.toEvict .exact 64 s = .ok (some 2, s1) ∧ (Hyperbolic.algo .exact 64).remove s1 2 = .ok (true, s2) ∧
    (Hyperbolic.algo .exact 64).evict s2 ⟨0, 0, -2⟩ = .error .useAfterFree :=
  ⟨_, _, _, reaches_after (by decide +kernel), res_ok (Hyperbolic.init 10 0 .none []) (by decide +kernel),
    res_ok (Hyperbolic.init 10 0 .none []) (by decide +kernel), res_err (by decide +kernel)⟩

/-- C45: the access count is a signed 24-bit number.  An object that has been hit 2^23 - 1 times is evicted before one that has never been
hit: there are calls after which object 1 is cached with that many hits, object 2 with none, both are sampled, and the next miss evicts
object 1. -/
theorem C45_wrap_fails_Hyperbolic : ∃ (ops : List Op) (out : List Bool) (s s' : Hyperbolic.State),
    (∀ op ∈ ops, Calls Hyperbolic.calls (SizeOk 0) op) ∧
    Reaches (Hyperbolic.algo .exact 2) (Hyperbolic.init 2 0 .none [0, 1]) ops out s ∧
    Hyperbolic_cached s = [(2, 1), (1, 1)] ∧ hitsSince (ops.zip out) 1 = 2 ^ 23 - 1 ∧ hitsSince (ops.zip out) 2 = 0 ∧
    (Hyperbolic.algo .exact 2).get s ⟨3, 1, -2⟩ = .ok (false, s') ∧ Hyperbolic_cached s' = [(3, 1), (2, 1)] :=
  Hyperbolic.wraps

end Verif.Props
