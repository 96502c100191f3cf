import Verif.Proof.Rank
import Verif.Props.Demo
import Mathlib.Order.WithBot
import Mathlib.Algebra.Order.Monoid.Unbundled.WithTop
/-!
# Properties of GDSF (libCacheSim/cache/eviction/cpp/GDSF.cpp)

Priorities are taken from any linearly ordered type with any scoring function.  The statements hold when the client
calls `get`, `find` without update, `remove` and `evict`.  With `find` with update or `insert` from outside a `get` two objects
can be given the same rank, and then one of them gets lost: see the `_fails` theorem at the end.
-/

namespace Verif.Props
open Verif Verif.Spec
set_option linter.unusedVariables false

/-- what GDSF has cached -/
abbrev GDSF_cached {P : Type} (s : Rank.State P) : Contents := s.base.cached

/-- the calls considered -/
abbrev GDSF.perms : Perms := { upd := false, ins := false }

/-- integer arithmetic for the examples -/
def GDSF.floor (b f n : Nat) : Nat := b + f * 1000000 / n

/-- The demo calls that are permitted here. -/
def GDSF_calls : List Op := demo.filter (fun op => match op with | .insert _ => false | .find _ u => !u | _ => true)

def GDSF_demo : Rank.State Nat := after (GDSF.algo 0 GDSF.floor) (GDSF.init 0 GDSF.floor 10 0 .none) GDSF_calls

theorem GDSF_demo_reached : (∀ op ∈ GDSF_calls, Calls GDSF.perms (SizeOk 0) op) ∧
    Reaches (GDSF.algo 0 GDSF.floor) (GDSF.init 0 GDSF.floor 10 0 .none) GDSF_calls
      [false, false, true, false, false, true, false, false, true, false, true, false, false, true, true] GDSF_demo ∧
    GDSF_cached GDSF_demo = [(6, 1), (5, 1), (1, 4)] := by
  refine ⟨?_, reaches_after (by decide +kernel), by decide +kernel⟩
  simp [GDSF_calls, demo, Calls, SizeOk, u32]

theorem C01_capacity_GDSF_partial {P : Type} [LinearOrder P] (start : P) (score : P → Nat → Nat → P) (cs md : Nat) (adm : Adm) :
    Capacity (GDSF.algo start score) (GDSF.init start score cs md adm) (Calls GDSF.perms (SizeOk md)) cs :=
  (Rank.strong (GDSF.scoring start score) false cs md).capacity (Rank.inv_init _ cs md adm)

example : (GDSF.algo 0 GDSF.floor).occ GDSF_demo > 0 := by decide +kernel

theorem C02_accounting_GDSF_partial {P : Type} [LinearOrder P] (start : P) (score : P → Nat → Nat → P) (cs md : Nat) (adm : Adm) :
    Accounting (GDSF.algo start score) GDSF_cached (GDSF.init start score cs md adm) (Calls GDSF.perms (SizeOk md)) md :=
  (Rank.strong (GDSF.scoring start score) false cs md).accounting (Rank.inv_init _ cs md adm)

example : (GDSF.algo 0 GDSF.floor).nObj GDSF_demo > 1 := by decide +kernel

theorem C03_hitIffCached_GDSF_partial {P : Type} [LinearOrder P] (start : P) (score : P → Nat → Nat → P) (cs md : Nat) (adm : Adm) :
    HitIffCached (GDSF.algo start score) GDSF_cached (GDSF.init start score cs md adm) (Calls GDSF.perms (SizeOk md)) :=
  (Rank.strong (GDSF.scoring start score) false cs md).hitIffCached (Rank.inv_init _ cs md adm)

theorem C04_noPhantom_GDSF_partial {P : Type} [LinearOrder P] (start : P) (score : P → Nat → Nat → P) (cs md : Nat) (adm : Adm) :
    NoPhantom (GDSF.algo start score) GDSF_cached (GDSF.init start score cs md adm) (Calls GDSF.perms (SizeOk md)) :=
  (Rank.strong (GDSF.scoring start score) false cs md).noPhantom (Rank.inv_init _ cs md adm) rfl

theorem C04_addsOnlyRequested_GDSF_partial {P : Type} [LinearOrder P] (start : P) (score : P → Nat → Nat → P) (cs md : Nat) (adm : Adm) :
    AddsOnlyRequested (GDSF.algo start score) GDSF_cached (GDSF.init start score cs md adm) (Calls GDSF.perms (SizeOk md)) :=
  (Rank.strong (GDSF.scoring start score) false cs md).addsOnlyRequested (Rank.inv_init _ cs md adm)

theorem C05_admittedMissCached_GDSF_partial {P : Type} [LinearOrder P] (start : P) (score : P → Nat → Nat → P) (cs md : Nat) (adm : Adm) :
    AdmittedMissCached (GDSF.algo start score) GDSF_cached (fun s r => admitsBase s.base r) (GDSF.init start score cs md adm) (Calls GDSF.perms (SizeOk md)) :=
  (Rank.strong (GDSF.scoring start score) false cs md).admittedMissCached (Rank.inv_init _ cs md adm)

/-- an admitted miss that needs evictions -/
example : 7 ∉ (GDSF_cached GDSF_demo).ids ∧ (fun s r => admitsBase s.base r) GDSF_demo ⟨7, 9, -2⟩ = true := by decide +kernel

theorem C06_evictOnDemand_GDSF_partial {P : Type} [LinearOrder P] (start : P) (score : P → Nat → Nat → P) (cs md : Nat) (adm : Adm) :
    EvictOnDemand (GDSF.algo start score) GDSF_cached (GDSF.init start score cs md adm) (Calls GDSF.perms (SizeOk md)) cs md :=
  (Rank.strong (GDSF.scoring start score) false cs md).evictOnDemand (Rank.inv_init _ cs md adm)

theorem C07_removeExact_GDSF_partial {P : Type} [LinearOrder P] (start : P) (score : P → Nat → Nat → P) (cs md : Nat) (adm : Adm) :
    RemoveExact (GDSF.algo start score) GDSF_cached (GDSF.init start score cs md adm) (Calls GDSF.perms (SizeOk md)) :=
  fun _ _ _ ho h id => let ⟨s', h1, _, h3⟩ := Rank.removeFull ((Rank.strong (GDSF.scoring start score) false cs md).reach (Rank.inv_init _ cs md adm) ho h) id; ⟨s', h1, h3⟩

/-- `core` is the whole state but the request counter and the admission policy's state. -/
theorem C08_rejectQuiet_GDSF_partial {P : Type} [LinearOrder P] (start : P) (score : P → Nat → Nat → P) (cs md : Nat) (adm : Adm) :
    RejectQuiet (GDSF.algo start score) GDSF_cached (fun s r => admitsBase s.base r) Rank.core (GDSF.init start score cs md adm) (Calls GDSF.perms (SizeOk md)) :=
  (Rank.strong (GDSF.scoring start score) false cs md).rejectQuiet (Rank.inv_init _ cs md adm)

/-- a rejected request -/
example : 7 ∉ (GDSF_cached GDSF_demo).ids ∧ (fun s r => admitsBase s.base r) GDSF_demo ⟨7, 11, -2⟩ = false := by decide +kernel

theorem C09_safe_GDSF_partial {P : Type} [LinearOrder P] (start : P) (score : P → Nat → Nat → P) (cs md : Nat) (adm : Adm) :
    Safe (GDSF.algo start score) (GDSF.init start score cs md adm) (Calls GDSF.perms (SizeOk md)) :=
  (Rank.strong (GDSF.scoring start score) false cs md).safe (Rank.inv_init _ cs md adm)

theorem C09_evictsOne_GDSF_partial {P : Type} [LinearOrder P] (start : P) (score : P → Nat → Nat → P) (cs md : Nat) (adm : Adm) :
    EvictsOne (GDSF.algo start score) GDSF_cached (GDSF.init start score cs md adm) (Calls GDSF.perms (SizeOk md)) :=
  fun _ _ _ ho h hne _ =>
    let ⟨s', v, h1, _, _, _, _, h3, _⟩ := Rank.evict_spec (GDSF.scoring start score) ((Rank.strong (GDSF.scoring start score) false cs md).reach (Rank.inv_init _ cs md adm) ho h)
      (by intro e; simp [GDSF_cached, Base.cached, e] at hne)
    ⟨(v.id, v.size), s', h1, h3⟩

section
variable {P : Type} [LinearOrder P]

/-- C43: a hit counts the access, gives the object the priority `score infl freq size` and stamps it with the number of the
request; all other objects keep their ranks, and the inflation value stays. -/
theorem C43_hit_GDSF_partial (start : P) (score : P → Nat → Nat → P) (cs md : Nat) (adm : Adm) (ops : List Op) (out : List Bool) (s : Rank.State P)
    (ho : ∀ op ∈ ops, Calls GDSF.perms (SizeOk md) op) (h : Reaches (GDSF.algo start score) (GDSF.init start score cs md adm) ops out s)
    (r : Req) (hin : r.id ∈ (GDSF_cached s).ids) :
    ∃ s' e rest, (GDSF.algo start score).get s r = .ok (true, s') ∧ (Rank.entries s).Perm (e :: rest) ∧ e.id = r.id ∧ s'.infl = s.infl ∧
      (Rank.entries s').Perm ({ e with freq := e.freq + 1, pri := score s.infl (e.freq + 1) e.size, stamp := s.base.nReq + 1 } :: rest) :=
  Rank.get_hit_ranks (GDSF.scoring start score) false ((Rank.strong (GDSF.scoring start score) false cs md).reach (Rank.inv_init _ cs md adm) ho h) r hin

example : 1 ∈ (GDSF_cached GDSF_demo).ids ∧
    Rank.entries GDSF_demo = [⟨1, 4, 3, 1083333, 8⟩, ⟨5, 1, 1, 1333333, 9⟩, ⟨6, 1, 2, 2333333, 11⟩] ∧ GDSF_demo.infl = 666666 := by
  refine ⟨?_, rfl, ?_⟩ <;> decide +kernel

/-- C43: an admitted miss evicts, one after the other, objects of lowest priority (the oldest rank among equals); the inflation
value becomes the priority of the last victim, and the new object gets access count 1 and the priority `score infl 1 size`. -/
theorem C43_miss_GDSF_partial (start : P) (score : P → Nat → Nat → P) (cs md : Nat) (adm : Adm) (ops : List Op) (out : List Bool) (s : Rank.State P)
    (ho : ∀ op ∈ ops, Calls GDSF.perms (SizeOk md) op) (h : Reaches (GDSF.algo start score) (GDSF.init start score cs md adm) ops out s)
    (r : Req) (hok : SizeOk md r) (hn : r.id ∉ (GDSF_cached s).ids) (ha : admitsBase s.base r = true) :
    ∃ s' vs kept, (GDSF.algo start score).get s r = .ok (false, s') ∧ Ranked.Evicts (Rank.entries s) vs kept ∧
      s'.infl = Ranked.inflation s.infl vs ∧
      (Rank.entries s').Perm (⟨r.id, r.size % u32, 1, score s'.infl 1 (r.size % u32), s.base.nReq + 1⟩ :: kept) :=
  Rank.get_miss_ranks (GDSF.scoring start score) false ((Rank.strong (GDSF.scoring start score) false cs md).reach (Rank.inv_init _ cs md adm) ho h) r hok hn ha

/-- two victims -/
example : admitsBase GDSF_demo.base ⟨7, 9, -2⟩ = true ∧
    Rank.entries (after (GDSF.algo 0 GDSF.floor) GDSF_demo [.get ⟨7, 9, -2⟩]) = [⟨7, 9, 1, 1444444, 12⟩, ⟨6, 1, 2, 2333333, 11⟩] ∧
    (after (GDSF.algo 0 GDSF.floor) GDSF_demo [.get ⟨7, 9, -2⟩]).infl = 1333333 := by
  refine ⟨?_, rfl, ?_⟩ <;> decide +kernel

/-- C43: `evict` removes an object of lowest priority, and its priority becomes the inflation value. -/
theorem C43_evict_GDSF_partial (start : P) (score : P → Nat → Nat → P) (cs md : Nat) (adm : Adm) (ops : List Op) (out : List Bool) (s : Rank.State P)
    (ho : ∀ op ∈ ops, Calls GDSF.perms (SizeOk md) op) (h : Reaches (GDSF.algo start score) (GDSF.init start score cs md adm) ops out s)
    (r : Req) (hne : GDSF_cached s ≠ []) :
    ∃ s' v, (GDSF.algo start score).evict s r = .ok s' ∧ Ranked.First v (Rank.entries s) ∧ (Rank.entries s).Perm (v :: Rank.entries s') ∧ s'.infl = v.pri := by
  obtain ⟨s', v, h1, _, _, _, _, _, _, h8, h9, h10⟩ := Rank.evict_spec (GDSF.scoring start score)
    ((Rank.strong (GDSF.scoring start score) false cs md).reach (Rank.inv_init _ cs md adm) ho h) (by intro e; simp [GDSF_cached, Base.cached, e] at hne)
  exact ⟨s', v, h1, h8, by rw [h9], h10⟩

/-- C43: the entries are the cached objects. -/
theorem C43_entries_GDSF_partial (start : P) (score : P → Nat → Nat → P) (cs md : Nat) (adm : Adm) (ops : List Op) (out : List Bool) (s : Rank.State P)
    (ho : ∀ op ∈ ops, Calls GDSF.perms (SizeOk md) op) (h : Reaches (GDSF.algo start score) (GDSF.init start score cs md adm) ops out s) :
    ((Rank.entries s).map (fun e => (e.id, e.size))).Perm (GDSF_cached s) :=
  Rank.entries_cached ((Rank.strong (GDSF.scoring start score) false cs md).reach (Rank.inv_init _ cs md adm) ho h)

/-- C43: with a scoring function that never goes below the inflation value (as adding a non-negative number), no cached object ranks
below it, and the inflation value never decreases, whatever is called. -/
theorem C43_inflation_GDSF_partial (start : P) (score : P → Nat → Nat → P) (hs : ∀ b f n, b ≤ score b f n) (cs md : Nat) (adm : Adm)
    (ops : List Op) (out : List Bool) (s : Rank.State P)
    (ho : ∀ op ∈ ops, Calls GDSF.perms (SizeOk md) op) (h : Reaches (GDSF.algo start score) (GDSF.init start score cs md adm) ops out s) :
    (∀ e ∈ Rank.entries s, s.infl ≤ e.pri) ∧
    ∀ op b s', Calls GDSF.perms (SizeOk md) op → (GDSF.algo start score).step s op = .ok (b, s') → s.infl ≤ s'.infl := by
  have key := run_inv (A := GDSF.algo start score) (okOp := Calls GDSF.perms (SizeOk md))
    (P := fun s => Rank.Inv cs md s ∧ ∀ e ∈ Rank.entries s, s.infl ≤ e.pri)
    (fun hop hi he => ⟨Rank.inv_step (GDSF.scoring start score) false hi.1 hop he,
      (Rank.change_low (R := GDSF.scoring start score) rfl hs (Rank.step_change (GDSF.scoring start score) false hi.1 hop he) hi.2).1⟩)
    ⟨Rank.inv_init _ cs md adm, by simp [Rank.entries, GDSF.init, Rank.init]⟩ ho h
  exact ⟨key.2, fun op b s' hop he =>
    (Rank.change_low (R := GDSF.scoring start score) rfl hs (Rank.step_change (GDSF.scoring start score) false key.1 hop he) key.2).2⟩

example : ∀ b f n, b ≤ GDSF.floor b f n := fun _ _ _ => Nat.le_add_right _ _

end

/-- C43, C09: `find` with update twice at the same request number gives two objects the same rank; the set keeps one of them, and a
later call follows a dangling iterator. -/
theorem C09_sameRank_fails_GDSF : faultOf (GDSF.algo 0 GDSF.floor) (GDSF.init 0 GDSF.floor 10 0 .none)
    [.get ⟨1, 1, -2⟩, .get ⟨2, 1, -2⟩, .find ⟨1, 1, -2⟩ true, .find ⟨2, 1, -2⟩ true, .find ⟨2, 1, -2⟩ true, .find ⟨1, 1, -2⟩ true] = some .useAfterFree := by
  decide +kernel

/-- C43, C09: likewise `evict` can find no rank although an object is cached. -/
theorem C09_evictsOne_fails_GDSF : faultOf (GDSF.algo 0 GDSF.floor) (GDSF.init 0 GDSF.floor 10 0 .none)
    [.get ⟨1, 1, -2⟩, .get ⟨2, 1, -2⟩, .find ⟨1, 1, -2⟩ true, .find ⟨2, 1, -2⟩ true, .evict ⟨0, 0, -2⟩, .evict ⟨0, 0, -2⟩] = some .outOfBounds := by
  decide +kernel

/-- exact integer arithmetic with infinity, as dividing a positive double by zero gives -/
def GDSF.withInf (b : WithTop Nat) (f n : Nat) : WithTop Nat := if n = 0 then ⊤ else b + (f * 1000000 / n : Nat)

/-- C43: once an object of size 0 has been evicted, the inflation value is infinite and so is every later priority: frequency and size
no longer count.  Here object 3, used four times, is evicted although object 4 of the same size was used once. -/
theorem C43_zeroSize_fails_GDSF :
    answers (GDSF.algo 0 GDSF.withInf) (GDSF.init 0 GDSF.withInf 100 8 .none)
      [.get ⟨1, 0, -2⟩, .get ⟨2, 90, -2⟩, .get ⟨3, 20, -2⟩, .get ⟨3, 20, -2⟩, .get ⟨3, 20, -2⟩, .get ⟨3, 20, -2⟩, .get ⟨4, 20, -2⟩, .evict ⟨0, 0, -2⟩, .get ⟨3, 20, -2⟩]
      = some [false, false, false, true, true, true, false, true, false] ∧
    answers (GDSF.algo 0 GDSF.withInf) (GDSF.init 0 GDSF.withInf 100 8 .none)
      [.get ⟨1, 1, -2⟩, .get ⟨2, 90, -2⟩, .get ⟨3, 20, -2⟩, .get ⟨3, 20, -2⟩, .get ⟨3, 20, -2⟩, .get ⟨3, 20, -2⟩, .get ⟨4, 20, -2⟩, .evict ⟨0, 0, -2⟩, .get ⟨3, 20, -2⟩]
      = some [false, false, false, true, true, true, false, true, true] := by
  refine ⟨?_, ?_⟩ <;> decide +kernel

end Verif.Props
