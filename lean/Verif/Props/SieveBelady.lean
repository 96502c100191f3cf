import Verif.Proof.SieveBelady
import Verif.Props.Demo
/-!
# Properties of Sieve_Belady (libCacheSim/cache/eviction/belady/Sieve_Belady.c)

`T` is the threshold computed in floating point; the theorems hold for every `T`.
-/

namespace Verif.Props
open Verif Verif.Spec
set_option linter.unusedVariables false

/-- what Sieve_Belady has cached -/
abbrev SieveBelady_cached (s : SieveBelady.State) : Contents := s.base.cached

def SieveBelady_demo : SieveBelady.State := after (SieveBelady.algo .exact) (SieveBelady.init 10 0 .none) demoNext

theorem SieveBelady_demo_reached : Reaches (SieveBelady.algo .exact) (SieveBelady.init 10 0 .none) demoNext
      [false, false, false, false, false, false, true, false, true, false, false, true, false, false, true, true, true] SieveBelady_demo ∧
    SieveBelady_cached SieveBelady_demo = [(6, 1), (1, 4)] ∧ SieveBelady_demo.hand = some 1 :=
  ⟨reaches_after (by decide +kernel), by decide +kernel, by decide +kernel⟩

section
variable (T : BeladyQueue.Thresh) (cs md : Nat) (adm : Adm)

theorem C01_capacity_SieveBelady_partial : Capacity (SieveBelady.algo T) (SieveBelady.init cs md adm) (Calls {} (SizeOk md)) cs :=
  (SieveBelady.cond T cs md).capacity (SieveBelady.inv_init cs md adm)

theorem C02_accounting_SieveBelady_partial :
    Accounting (SieveBelady.algo T) SieveBelady_cached (SieveBelady.init cs md adm) (Calls {} (SizeOk md)) md :=
  (SieveBelady.cond T cs md).accounting (SieveBelady.inv_init cs md adm)

/-- Every call that returns answers rightly. -/
theorem C03_hitIffCached_SieveBelady_partial :
    HitIffCachedIf (SieveBelady.algo T) SieveBelady_cached (SieveBelady.init cs md adm) (Calls {} (SizeOk md)) :=
  (SieveBelady.cond T cs md).hitIffCached (SieveBelady.inv_init cs md adm)

theorem C04_noPhantom_SieveBelady_partial :
    NoPhantom (SieveBelady.algo T) SieveBelady_cached (SieveBelady.init cs md adm) (Calls {} (SizeOk md)) :=
  (SieveBelady.cond T cs md).noPhantom (SieveBelady.inv_init cs md adm) rfl

theorem C04_addsOnlyRequested_SieveBelady_partial :
    AddsOnlyRequested (SieveBelady.algo T) SieveBelady_cached (SieveBelady.init cs md adm) (Calls {} (SizeOk md)) :=
  (SieveBelady.cond T cs md).addsOnlyRequested (SieveBelady.inv_init cs md adm)

theorem C07_removeExact_SieveBelady_partial :
    RemoveExactIf (SieveBelady.algo T) SieveBelady_cached (SieveBelady.init cs md adm) (Calls {} (SizeOk md)) :=
  (SieveBelady.cond T cs md).removeExact (SieveBelady.inv_init cs md adm)

/-- C54: Sieve_Belady is the reference queue with a hand; where the reference has no victim, it crashes. -/
theorem C54_sieve_SieveBelady :
    IsMachine (SieveBelady.algo T) (SieveBelady.init cs md adm) (Calls {} (SizeOk md)) (Dated.sieve T cs md)
      { objs := [], reqs := 0, misses := 0, adm := adm, hand := none } SieveBelady.view .nullDeref :=
  (SieveBelady.stepIs T cs md).isMachine ⟨SieveBelady.inv_init cs md adm, rfl⟩ rfl

/-- C05: a request that can be admitted and whose object is due is cached, if the call returns. -/
theorem C05_admittedMissCached_SieveBelady_partial {ops : List Op} {out : List Bool} {s : SieveBelady.State}
    (ho : ∀ op ∈ ops, Calls {} (SizeOk md) op) (hr : Reaches (SieveBelady.algo T) (SieveBelady.init cs md adm) ops out s) {r : Req}
    (hsz : SizeOk md r) (hn : r.id ∉ (SieveBelady_cached s).ids) (ha : admitsBase s.base r = true)
    (hd : r.next - ((s.base.nReq + 1 : Nat) : Int) ≤ T s.nMiss (s.base.nReq + 1) cs) {b : Bool} {s' : SieveBelady.State}
    (hg : (SieveBelady.algo T).get s r = .ok (b, s')) : (r.id, r.size % u32) ∈ SieveBelady_cached s' := by
  obtain ⟨hi, hm⟩ := (SieveBelady.stepIs T cs md).inv ⟨SieveBelady.inv_init cs md adm, rfl⟩ ho hr
  have hl : s.base.lookup r.id = none := lookup_none_iff'.2 hn
  have hadm : ((SieveBelady.view s).adm.admit r).1 = true ∧ r.size + md ≤ cs := by
    have e : admitsBase s.base r = ((s.base.adm.admit r).1 && decide (r.size + s.base.objMd ≤ s.base.cacheSize)) := rfl
    rw [e, hi.mdz, hi.csz] at ha
    have ha' := ha
    simp only [Bool.and_eq_true, decide_eq_true_eq] at ha'
    exact ha'
  have hd' : Dated.isDue T cs ((SieveBelady.view s).reqs + 1) (SieveBelady.view s).misses (Dated.Entry.ofReq r) = true := by
    simp only [Dated.isDue, decide_eq_true_eq]
    exact hd
  rcases SieveBelady.get_spec (T := T) hi hm r hsz with ⟨_, h2⟩ | ⟨b', s1, h1, ⟨hi1, _⟩, h3⟩
  · rw [h2] at hg; cases hg
  · rw [h1] at hg
    cases hg
    unfold Dated.sget at h3
    rw [SieveBelady.holds_eq hi, hl] at h3
    simp only [Option.isSome_none, Bool.false_eq_true, if_false, if_pos hadm, hd', if_true] at h3
    split at h3
    · cases h3
    · simp only [Option.some.injEq, Prod.mk.injEq] at h3
      have hp := hi1.q.perm_view
      have e : (SieveBelady.view s').objs = viewOf entOf s'.base s'.q.reverse := rfl
      refine hp.subset ?_
      show (r.id, r.size % u32) ∈ Dated.contents (viewOf entOf s'.base s'.q.reverse)
      rw [← e, ← h3.2]
      simp [Dated.contents, Dated.Entry.ofReq]

end

/-- a due request that can be admitted -/
example : 7 ∉ (SieveBelady_cached SieveBelady_demo).ids ∧ admitsBase SieveBelady_demo.base ⟨7, 9, 20⟩ = true ∧
    (20 : Int) - ((SieveBelady_demo.base.nReq + 1 : Nat) : Int) ≤ BeladyQueue.Thresh.exact SieveBelady_demo.nMiss (SieveBelady_demo.base.nReq + 1) 10 ∧
    answers (SieveBelady.algo .exact) SieveBelady_demo [.get ⟨7, 9, 20⟩] = some [false] := by
  refine ⟨?_, ?_, ?_, ?_⟩ <;> decide +kernel

/-- C05: an object that is not due is not cached; room is made for it all the same: the only cached object is thrown out, and the cache is
empty afterwards. -/
theorem C05_admittedMissCached_fails_SieveBelady : ∃ out s, ∃ s' : SieveBelady.State,
    Reaches (SieveBelady.algo .exact) (SieveBelady.init 2 0 .none) [.get ⟨1, 1, int64Max⟩, .get ⟨2, 2, 3⟩, .get ⟨2, 2, int64Max⟩] out s ∧
    SieveBelady_cached s = [(2, 2)] ∧ admitsBase s.base ⟨3, 1, int64Max⟩ = true ∧
    (SieveBelady.algo .exact).get s ⟨3, 1, int64Max⟩ = .ok (false, s') ∧ SieveBelady_cached s' = [] :=
  ⟨[false, false, true], _, _, reaches_after (by decide +kernel), by decide +kernel, by decide +kernel,
    res_ok (SieveBelady.init 2 0 .none) (by decide +kernel), by decide +kernel⟩

/-- C09: when every cached object is due and the hand has not been placed, Sieve_Belady unlinks a null pointer; without next request times
every object is due, so the first eviction crashes, whatever the threshold (which is never negative). -/
theorem C09_safe_fails_SieveBelady (T : BeladyQueue.Thresh) (hT : ∀ a b c, 0 ≤ T a b c) :
    (∀ op ∈ [Op.get ⟨1, 1, -2⟩, Op.get ⟨2, 1, -2⟩], Calls {} (SizeOk 0) op) ∧
    (SieveBelady.algo T).run (SieveBelady.init 1 0 .none) [.get ⟨1, 1, -2⟩, .get ⟨2, 1, -2⟩] = .error .nullDeref := by
  have ho : ∀ op ∈ [Op.get ⟨1, 1, -2⟩, Op.get ⟨2, 1, -2⟩], Calls {} (SizeOk 0) op := by simp [Calls, SizeOk, u32]
  refine ⟨ho, ?_⟩
  have hd : Dated.isDue T 1 2 1 ⟨1, 1, -2⟩ = true := by
    have := hT 1 2 1
    simp only [Dated.isDue, decide_eq_true_eq]
    omega
  have hd0 : Dated.isDue T 1 1 0 ⟨1, 1, -2⟩ = true := by
    have := hT 0 1 1
    simp only [Dated.isDue, decide_eq_true_eq]
    omega
  have hno : (Dated.sieve T 1 0).run { objs := [], reqs := 0, misses := 0, adm := .none, hand := none } [.get ⟨1, 1, -2⟩, .get ⟨2, 1, -2⟩] = none := by
    simp [Machine.run, Dated.sieve, Dated.sget, Dated.holds, Adm.admit, Dated.sieveSweep, bytes, Dated.contents, Dated.Entry.ofReq, u32,
      Dated.sieveEvict, Dated.victim, hd, hd0]
  rcases C54_sieve_SieveBelady T 1 0 .none [.get ⟨1, 1, -2⟩, .get ⟨2, 1, -2⟩] ho with ⟨_, h⟩ | ⟨out, s, _, h⟩
  · exact h
  · rw [hno] at h; cases h

end Verif.Props
