import Verif.Proof.Rank
import Verif.Props.Demo
/-!
# Properties of LFUCpp (libCacheSim/cache/eviction/cpp/LFU.cpp)

The statements hold when the client calls `get`, `find` without update and `evict`; `remove` frees the object twice, and `find`
with update or `insert` from outside a `get` can lose an object: see the `_fails` theorems at the end.
-/

namespace Verif.Props
open Verif Verif.Spec
set_option linter.unusedVariables false

/-- what LFUCpp has cached -/
abbrev LFUCpp_cached (s : Rank.State Nat) : Contents := s.base.cached

/-- the calls considered -/
abbrev LFUCpp.perms : Perms := { upd := false, ins := false, rem := false }

/-- The demo calls that are permitted here. -/
def LFUCpp_calls : List Op := demo.filter (fun op => match op with | .insert _ => false | .remove _ => false | .find _ u => !u | _ => true)

def LFUCpp_demo : Rank.State Nat := after LFUCpp.algo (LFUCpp.init 10 0 .none) LFUCpp_calls

theorem LFUCpp_demo_reached : (∀ op ∈ LFUCpp_calls, Calls LFUCpp.perms (SizeOk 0) op) ∧
    Reaches LFUCpp.algo (LFUCpp.init 10 0 .none) LFUCpp_calls
      [false, false, true, false, false, true, false, false, true, false, false, true, true] LFUCpp_demo ∧
    LFUCpp_cached LFUCpp_demo = [(6, 1), (5, 1), (1, 4)] := by
  refine ⟨?_, reaches_after (by decide +kernel), by decide +kernel⟩
  simp [LFUCpp_calls, demo, Calls, SizeOk, u32]

theorem C01_capacity_LFUCpp_partial (cs md : Nat) (adm : Adm) :
    Capacity LFUCpp.algo (LFUCpp.init cs md adm) (Calls LFUCpp.perms (SizeOk md)) cs :=
  (Rank.strong Rank.lfuScoring true cs md).capacity (Rank.inv_init _ cs md adm)

example : LFUCpp.algo.occ LFUCpp_demo > 0 := by decide +kernel

theorem C02_accounting_LFUCpp_partial (cs md : Nat) (adm : Adm) :
    Accounting LFUCpp.algo LFUCpp_cached (LFUCpp.init cs md adm) (Calls LFUCpp.perms (SizeOk md)) md :=
  (Rank.strong Rank.lfuScoring true cs md).accounting (Rank.inv_init _ cs md adm)

example : LFUCpp.algo.nObj LFUCpp_demo > 1 := by decide +kernel

theorem C03_hitIffCached_LFUCpp_partial (cs md : Nat) (adm : Adm) :
    HitIffCached LFUCpp.algo LFUCpp_cached (LFUCpp.init cs md adm) (Calls LFUCpp.perms (SizeOk md)) :=
  (Rank.strong Rank.lfuScoring true cs md).hitIffCached (Rank.inv_init _ cs md adm)

theorem C04_noPhantom_LFUCpp_partial (cs md : Nat) (adm : Adm) :
    NoPhantom LFUCpp.algo LFUCpp_cached (LFUCpp.init cs md adm) (Calls LFUCpp.perms (SizeOk md)) :=
  (Rank.strong Rank.lfuScoring true cs md).noPhantom (Rank.inv_init _ cs md adm) rfl

theorem C04_addsOnlyRequested_LFUCpp_partial (cs md : Nat) (adm : Adm) :
    AddsOnlyRequested LFUCpp.algo LFUCpp_cached (LFUCpp.init cs md adm) (Calls LFUCpp.perms (SizeOk md)) :=
  (Rank.strong Rank.lfuScoring true cs md).addsOnlyRequested (Rank.inv_init _ cs md adm)

theorem C05_admittedMissCached_LFUCpp_partial (cs md : Nat) (adm : Adm) :
    AdmittedMissCached LFUCpp.algo LFUCpp_cached (fun s r => admitsBase s.base r) (LFUCpp.init cs md adm) (Calls LFUCpp.perms (SizeOk md)) :=
  (Rank.strong Rank.lfuScoring true cs md).admittedMissCached (Rank.inv_init _ cs md adm)

/-- an admitted miss that needs evictions -/
example : 7 ∉ (LFUCpp_cached LFUCpp_demo).ids ∧ (fun s r => admitsBase s.base r) LFUCpp_demo ⟨7, 9, -2⟩ = true := by decide +kernel

theorem C06_evictOnDemand_LFUCpp_partial (cs md : Nat) (adm : Adm) :
    EvictOnDemand LFUCpp.algo LFUCpp_cached (LFUCpp.init cs md adm) (Calls LFUCpp.perms (SizeOk md)) cs md :=
  (Rank.strong Rank.lfuScoring true cs md).evictOnDemand (Rank.inv_init _ cs md adm)

/-- `core` is the whole state but the request counter and the admission policy's state. -/
theorem C08_rejectQuiet_LFUCpp_partial (cs md : Nat) (adm : Adm) :
    RejectQuiet LFUCpp.algo LFUCpp_cached (fun s r => admitsBase s.base r) Rank.core (LFUCpp.init cs md adm) (Calls LFUCpp.perms (SizeOk md)) :=
  (Rank.strong Rank.lfuScoring true cs md).rejectQuiet (Rank.inv_init _ cs md adm)

/-- a rejected request -/
example : 7 ∉ (LFUCpp_cached LFUCpp_demo).ids ∧ (fun s r => admitsBase s.base r) LFUCpp_demo ⟨7, 11, -2⟩ = false := by decide +kernel

theorem C09_safe_LFUCpp_partial (cs md : Nat) (adm : Adm) :
    Safe LFUCpp.algo (LFUCpp.init cs md adm) (Calls LFUCpp.perms (SizeOk md)) :=
  (Rank.strong Rank.lfuScoring true cs md).safe (Rank.inv_init _ cs md adm)

theorem C09_evictsOne_LFUCpp_partial (cs md : Nat) (adm : Adm) :
    EvictsOne LFUCpp.algo LFUCpp_cached (LFUCpp.init cs md adm) (Calls LFUCpp.perms (SizeOk md)) :=
  fun _ _ _ ho h hne _ =>
    let ⟨s', v, h1, _, _, _, _, h3, _⟩ := Rank.evict_spec Rank.lfuScoring ((Rank.strong Rank.lfuScoring true cs md).reach (Rank.inv_init _ cs md adm) ho h)
      (by intro e; simp [LFUCpp_cached, Base.cached, e] at hne)
    ⟨(v.id, v.size), s', h1, h3⟩

/-- C43: a hit adds one to the object's access count and stamps it with the number of the request; all other objects stay as they are. -/
theorem C43_hit_LFUCpp_partial (cs md : Nat) (adm : Adm) (ops : List Op) (out : List Bool) (s : Rank.State Nat)
    (ho : ∀ op ∈ ops, Calls LFUCpp.perms (SizeOk md) op) (h : Reaches LFUCpp.algo (LFUCpp.init cs md adm) ops out s)
    (r : Req) (hin : r.id ∈ (LFUCpp_cached s).ids) :
    ∃ s' e rest, LFUCpp.algo.get s r = .ok (true, s') ∧ (Rank.entries s).Perm (e :: rest) ∧ e.id = r.id ∧
      (Rank.entries s').Perm ({ e with freq := e.freq + 1, pri := e.freq + 1, stamp := s.base.nReq + 1 } :: rest) := by
  obtain ⟨s', e, rest, h1, h2, h3, _, h4⟩ := Rank.get_hit_ranks Rank.lfuScoring true
    ((Rank.strong Rank.lfuScoring true cs md).reach (Rank.inv_init _ cs md adm) ho h) r hin
  exact ⟨s', e, rest, h1, h2, h3, h4⟩

/-- C43: an admitted miss evicts, one after the other, objects of lowest access count, among these the least recently used; the new
object starts with count 1. -/
theorem C43_miss_LFUCpp_partial (cs md : Nat) (adm : Adm) (ops : List Op) (out : List Bool) (s : Rank.State Nat)
    (ho : ∀ op ∈ ops, Calls LFUCpp.perms (SizeOk md) op) (h : Reaches LFUCpp.algo (LFUCpp.init cs md adm) ops out s)
    (r : Req) (hok : SizeOk md r) (hn : r.id ∉ (LFUCpp_cached s).ids) (ha : admitsBase s.base r = true) :
    ∃ s' vs kept, LFUCpp.algo.get s r = .ok (false, s') ∧ Ranked.Evicts (Rank.entries s) vs kept ∧
      (Rank.entries s').Perm (⟨r.id, r.size % u32, 1, 1, s.base.nReq + 1⟩ :: kept) := by
  obtain ⟨s', vs, kept, h1, h2, _, h4⟩ := Rank.get_miss_ranks Rank.lfuScoring true
    ((Rank.strong Rank.lfuScoring true cs md).reach (Rank.inv_init _ cs md adm) ho h) r hok hn ha
  exact ⟨s', vs, kept, h1, h2, h4⟩

/-- C43: the rank by which victims are chosen is the access count, and the entries are the cached objects. -/
theorem C43_rank_LFUCpp_partial (cs md : Nat) (adm : Adm) (ops : List Op) (out : List Bool) (s : Rank.State Nat)
    (ho : ∀ op ∈ ops, Calls LFUCpp.perms (SizeOk md) op) (h : Reaches LFUCpp.algo (LFUCpp.init cs md adm) ops out s) :
    (∀ e ∈ Rank.entries s, e.pri = e.freq) ∧ ((Rank.entries s).map (fun e => (e.id, e.size))).Perm (LFUCpp_cached s) := by
  have key := run_inv (A := LFUCpp.algo) (okOp := Calls LFUCpp.perms (SizeOk md))
    (P := fun s => Rank.Inv cs md s ∧ ∀ e ∈ Rank.entries s, e.pri = e.freq)
    (fun hop hi he => ⟨Rank.inv_step Rank.lfuScoring true hi.1 hop he, Rank.change_lfu (Rank.step_change Rank.lfuScoring true hi.1 hop he) hi.2⟩)
    ⟨Rank.inv_init _ cs md adm, by simp [Rank.entries, LFUCpp.init, Rank.init]⟩ ho h
  exact ⟨key.2, Rank.entries_cached key.1⟩

/-- C43: `evict` removes an object with the lowest access count, among these the least recently used. -/
theorem C43_lfuEvictsLowest_LFUCpp_partial (cs md : Nat) (adm : Adm) (ops : List Op) (out : List Bool) (s : Rank.State Nat)
    (ho : ∀ op ∈ ops, Calls LFUCpp.perms (SizeOk md) op) (h : Reaches LFUCpp.algo (LFUCpp.init cs md adm) ops out s)
    (r : Req) (hne : LFUCpp_cached s ≠ []) :
    ∃ s' v, LFUCpp.algo.evict s r = .ok s' ∧ (Rank.entries s).Perm (v :: Rank.entries s') ∧
      ∀ e ∈ Rank.entries s, v.freq < e.freq ∨ (v.freq = e.freq ∧ v.stamp ≤ e.stamp) := by
  obtain ⟨s', v, h1, _, _, _, _, _, _, h8, h9, _⟩ := Rank.evict_spec Rank.lfuScoring
    ((Rank.strong Rank.lfuScoring true cs md).reach (Rank.inv_init _ cs md adm) ho h) (by intro e; simp [LFUCpp_cached, Base.cached, e] at hne)
  obtain ⟨k, _⟩ := C43_rank_LFUCpp_partial cs md adm ops out s ho h
  refine ⟨s', v, h1, by rw [h9], fun e he => ?_⟩
  have := h8.2 e he
  rw [k e he, k v h8.1] at this
  exact this

example : Rank.entries LFUCpp_demo = [⟨5, 1, 1, 1, 9⟩, ⟨6, 1, 2, 2, 11⟩, ⟨1, 4, 3, 3, 8⟩] := rfl

/-- C07: `remove` of any cached object uses it after it has been freed. -/
theorem C07_remove_fails_LFUCpp (cs md : Nat) (adm : Adm) (ops : List Op) (out : List Bool) (s : Rank.State Nat)
    (ho : ∀ op ∈ ops, Calls LFUCpp.perms (SizeOk md) op) (h : Reaches LFUCpp.algo (LFUCpp.init cs md adm) ops out s)
    (id : ObjId) (hin : id ∈ (LFUCpp_cached s).ids) : LFUCpp.algo.remove s id = .error .useAfterFree := by
  have hi := (Rank.strong Rank.lfuScoring true cs md).reach (Rank.inv_init _ cs md adm) ho h
  have : (s.base.lookup id).isSome = true := by rw [lookup_isSome_iff]; simpa using hin
  obtain ⟨o, hl⟩ := Option.isSome_iff_exists.1 this
  obtain ⟨s', e, h1, h2, h3, _⟩ := Rank.remove_hit hi id hl
  have hno : s'.base.lookup id = none := by
    rw [lookup_none_iff']
    intro hx
    have hn : (s.base.cached.map Prod.fst).Nodup := by rw [map_id_eq]; exact hi.b.inv.nodup
    have hp := (h3.map Prod.fst).nodup_iff.1 hn
    rw [List.map_cons, List.nodup_cons, (lookup_some_mem hl).2] at hp
    exact hp.1 hx
  show Rank.removeLFU s id = _
  unfold Rank.removeLFU
  simp only [hl, h1, Res.bind_ok]
  unfold Base.removeObjBase
  rw [hno]
  rfl

/-- C09: `find` with update twice at the same request number gives two objects the same rank; the set keeps one of them, and a later
call follows a dangling iterator. -/
theorem C09_sameRank_fails_LFUCpp : faultOf LFUCpp.algo (LFUCpp.init 10 0 .none)
    [.get ⟨1, 1, -2⟩, .get ⟨2, 1, -2⟩, .find ⟨1, 1, -2⟩ true, .find ⟨2, 1, -2⟩ true, .find ⟨2, 1, -2⟩ true, .find ⟨1, 1, -2⟩ true] = some .useAfterFree := by
  decide +kernel

end Verif.Props
