import Verif.Proof.LHDModel
import Verif.Props.Demo
/-!
# Properties of LHD (libCacheSim/cache/eviction/LHD)

The random choices (`picks`) and the rounding of floats (`R`) are arbitrary.  The statements hold for requests of objects that are not empty;
the client may call anything but `find` with update.  Where every object has to have one size, `sz` says so.
-/

namespace Verif.Props
open Verif Verif.Spec Verif.Spec.LHD
set_option linter.unusedVariables false

/-- what LHD has cached -/
abbrev LHD_cached (s : LHD.State) : Contents := s.sizeMap

/-- the calls considered -/
abbrev LHD.calls : Perms := { upd := false }

/-- The demo calls that are permitted here. -/
def LHD_calls : List Op := demo.filter (fun op => match op with | .find _ u => !u | _ => true)

/-- random numbers for the demo -/
def LHD_picks : List Nat := (List.range 40).map (fun i => (7 * i + 3) % 33)

def LHD_demo : LHD.State := after (LHD.algo .exact) (LHD.init .exact 10 0 .none LHD_picks) LHD_calls

theorem LHD_demo_reached : (∀ op ∈ LHD_calls, Calls LHD.calls (Sized 0) op) ∧
    Reaches (LHD.algo .exact) (LHD.init .exact 10 0 .none LHD_picks) LHD_calls
      [false, false, true, false, false, true, false, false, true, false, true, false, false, true, true, true] LHD_demo ∧
    LHD_cached LHD_demo = [(8, 1), (6, 1), (5, 1), (1, 4)] := by
  refine ⟨?_, reaches_after (by decide +kernel), by decide +kernel⟩
  simp [LHD_calls, demo, Calls, Sized, u32]

/-- the sizes in the demo -/
def LHD_sizes (id : ObjId) : Nat := [0, 4, 3, 3, 2, 1, 1, 30, 1].getD id 0

theorem LHD_demo_once : ∀ op ∈ LHD_calls, Calls LHD.calls (SizedOnce LHD_sizes 0) op := by
  simp [LHD_calls, demo, Calls, SizedOnce, Sized, LHD_sizes, u32]

theorem LHD.once_calls {sz : ObjId → Nat} {md : Nat} {op : Op} (h : Calls LHD.calls (SizedOnce sz md) op) :
    Calls LHD.calls (Sized md) op ∧ ∀ r, insertedBy op = some r → r.size = sz r.id := by
  cases op with
  | get r => exact ⟨h.1, fun q e => by cases e; exact h.2⟩
  | insert r => exact ⟨⟨h.1, h.2.1⟩, fun q e => by cases e; exact h.2.2⟩
  | find r u => exact ⟨h, fun q e => by cases e⟩
  | remove id => exact ⟨h, fun q e => by cases e⟩
  | evict r => exact ⟨h, fun q e => by cases e⟩

theorem LHD.once_reach {R : LHD.Rounding} {sz : ObjId → Nat} {cs md : Nat} {adm : Adm} {picks : List Nat} {ops : List Op} {out : List Bool} {s : LHD.State}
    (ho : ∀ op ∈ ops, Calls LHD.calls (SizedOnce sz md) op) (h : Reaches (LHD.algo R) (LHD.init R cs md adm picks) ops out s) :
    LHD.Inv R cs md s ∧ s.base.occ ≤ cs ∧ ∀ x ∈ s.sizeMap, x.2 = sz x.1 := by
  obtain ⟨out', s', h1, h2, _, _, h3⟩ := LHD.run_spec ops (LHD.inv_init R cs md adm picks) (fun op hh => (LHD.once_calls (ho op hh)).1)
  unfold Reaches at h
  rw [h] at h1
  cases h1
  exact ⟨h2, h3 sz (fun op hh => (LHD.once_calls (ho op hh)).2) (by simp [LHD.init]) (by simp [LHD.init, Base.init])⟩

/-- C01, when every object has one size. -/
theorem C01_capacity_LHD_partial (R : LHD.Rounding) (sz : ObjId → Nat) (cs md : Nat) (adm : Adm) (picks : List Nat) :
    Capacity (LHD.algo R) (LHD.init R cs md adm picks) (Calls LHD.calls (SizedOnce sz md)) cs :=
  fun _ _ _ ho h => (LHD.once_reach ho h).2.1

example : (LHD.algo .exact).occ LHD_demo > 0 := by decide +kernel

/-- C01 fails otherwise: a hit with a larger size makes the cached object larger, and nothing is evicted. -/
theorem C01_capacity_fails_LHD : ∃ (ops : List Op) (s : LHD.State), (∀ op ∈ ops, Calls {} (Sized 0) op) ∧
    Reaches (LHD.algo .exact) (LHD.init .exact 10 0 .none []) ops [false, true] s ∧ (LHD.algo .exact).occ s = 20 ∧ (LHD.algo .exact).cacheSize s = 10 :=
  ⟨[.get ⟨1, 1, -2⟩, .get ⟨1, 20, -2⟩], _, by simp [Calls, Sized, u32], reaches_after (by decide +kernel), by decide +kernel, by decide +kernel⟩

theorem C02_accounting_LHD_partial (R : LHD.Rounding) (cs md : Nat) (adm : Adm) (picks : List Nat) :
    Accounting (LHD.algo R) LHD_cached (LHD.init R cs md adm picks) (Calls LHD.calls (Sized md)) md := by
  intro ops out s ho h
  have hi := LHD.reach (LHD.inv_init R cs md adm picks) ho h
  rw [bytes_eq_charge]
  exact ⟨hi.occ, hi.nObj⟩

example : (LHD.algo .exact).nObj LHD_demo > 1 := by decide +kernel

/-- C02 fails for objects of 4 GiB and more: the insertion adds the size of the request, but the cached size is a 32-bit number, and the
removal subtracts that one.  Here the cache reports 2^32 bytes when it is empty. -/
theorem C02_accounting_fails_LHD : ∃ (ops : List Op) (s : LHD.State), (∀ op ∈ ops, Calls {} (fun r => 0 < r.size) op) ∧
    Reaches (LHD.algo .exact) (LHD.init .exact (2 ^ 34) 0 .none []) ops [false, true] s ∧ LHD_cached s = [] ∧ (LHD.algo .exact).occ s = 2 ^ 32 :=
  ⟨[.get ⟨1, 4294967297, -2⟩, .remove 1], _, by simp [Calls], reaches_after (by decide +kernel), by decide +kernel, by decide +kernel⟩

theorem C03_hitIffCached_LHD_partial (R : LHD.Rounding) (cs md : Nat) (adm : Adm) (picks : List Nat) :
    HitIffCached (LHD.algo R) LHD_cached (LHD.init R cs md adm picks) (Calls LHD.calls (Sized md)) := by
  intro ops out s ho h
  have hi := LHD.reach (LHD.inv_init R cs md adm picks) ho h
  refine ⟨fun r _ => LHD.find_false r, fun r hr => by simp [Calls] at hr, fun r hr => ?_⟩
  obtain ⟨s', h1, _⟩ := LHD.get_spec hi (r := r) hr
  exact ⟨s', h1⟩

theorem C04_noPhantom_LHD_partial (R : LHD.Rounding) (cs md : Nat) (adm : Adm) (picks : List Nat) :
    NoPhantom (LHD.algo R) LHD_cached (LHD.init R cs md adm picks) (Calls LHD.calls (Sized md)) := by
  intro ops out s ho h
  obtain ⟨out', s', h1, h2, _, h3, _⟩ := LHD.run_spec ops (LHD.inv_init R cs md adm picks) ho
  unfold Reaches at h
  rw [h] at h1
  cases h1
  refine ⟨h2.nodup, fun x hx => ?_⟩
  rcases h3 x hx with ⟨h0, _⟩ | h0
  · simp [LHD.init] at h0
  · exact h0

theorem C04_addsOnlyRequested_LHD_partial (R : LHD.Rounding) (cs md : Nat) (adm : Adm) (picks : List Nat) :
    AddsOnlyRequested (LHD.algo R) LHD_cached (LHD.init R cs md adm picks) (Calls LHD.calls (Sized md)) := by
  intro ops out s ho h op b s' hop hs
  have hi := LHD.reach (LHD.inv_init R cs md adm picks) ho h
  obtain ⟨b', s1, h1, _, _, h2, _⟩ := LHD.step_spec hi hop
  rw [hs] at h1
  cases h1
  exact h2

theorem C05_admittedMissCached_LHD_partial (R : LHD.Rounding) (cs md : Nat) (adm : Adm) (picks : List Nat) :
    AdmittedMissCached (LHD.algo R) LHD_cached (fun s r => admitsBase s.base r) (LHD.init R cs md adm picks) (Calls LHD.calls (Sized md)) := by
  intro ops out s ho h r hr hn ha
  have hi := LHD.reach (LHD.inv_init R cs md adm picks) ho h
  obtain ⟨s', h1, _, _, _, _, _, h2⟩ := LHD.get_spec hi (r := r) hr
  obtain ⟨vs, kept, _, h3, _⟩ := h2 hn ha
  have hu : r.size % u32 = r.size := Nat.mod_eq_of_lt (by have := hr.2; omega)
  rw [decide_eq_false hn] at h1
  exact ⟨s', h1, by show _ ∈ s'.sizeMap; rw [h3, hu]; exact List.mem_cons_self⟩

/-- an admitted miss that needs evictions -/
example : 7 ∉ (LHD_cached LHD_demo).ids ∧ (fun s r => admitsBase s.base r) LHD_demo ⟨7, 9, -2⟩ = true := by decide +kernel

/-- C06, when every object has one size. -/
theorem C06_evictOnDemand_LHD_partial (R : LHD.Rounding) (sz : ObjId → Nat) (cs md : Nat) (adm : Adm) (picks : List Nat) :
    EvictOnDemand (LHD.algo R) LHD_cached (LHD.init R cs md adm picks) (Calls LHD.calls (SizedOnce sz md)) cs md := by
  intro ops out s ho h r b s' hr hg
  obtain ⟨hi, _, hsz⟩ := LHD.once_reach ho h
  have hrs : Sized md r := hr.1
  obtain ⟨s1, h1, _, _, _, h2, h3, h4⟩ := LHD.get_spec hi (r := r) hrs
  have hu : r.size % u32 = r.size := Nat.mod_eq_of_lt (by have := hrs.2; omega)
  rw [hg] at h1
  injection h1 with h1
  injection h1 with hb hs
  subst hs
  constructor
  · intro hbt
    have hin : r.id ∈ s.sizeMap.map Prod.fst := by rw [hbt] at hb; exact of_decide_eq_true hb.symm
    have : s'.sizeMap = s.sizeMap := by
      rw [h2 hin]
      conv_rhs => rw [← List.map_id s.sizeMap]
      refine List.map_congr_left fun x hx => ?_
      split
      · rename_i e
        rw [hr.2, ← e, ← hsz x hx]; rfl
      · rfl
    show s'.sizeMap.Perm s.sizeMap
    rw [this]
  · intro hbf
    have hin : r.id ∉ s.sizeMap.map Prod.fst := by rw [hbf] at hb; exact of_decide_eq_false hb.symm
    cases ha : admitsBase s.base r with
    | false =>
      refine ⟨[], s.sizeMap, List.Perm.refl _, Or.inl ?_, by simp⟩
      rw [h3 hin ha, LHD.canInsert_eq]
      exact List.Perm.refl _
    | true =>
      obtain ⟨vs, kept, k1, k2, _, k3, _⟩ := h4 hin ha
      refine ⟨vs, kept, k1, Or.inr (by rw [hu]; show s'.sizeMap.Perm _; rw [k2]), ?_⟩
      intro us v e
      rw [bytes_eq_charge]
      exact k3 us v e

/-- C06: a call to `evict` evicts exactly one object. -/
theorem C06_evictsOne_LHD_partial (R : LHD.Rounding) (cs md : Nat) (adm : Adm) (picks : List Nat) :
    EvictsOne (LHD.algo R) LHD_cached (LHD.init R cs md adm picks) (Calls LHD.calls (Sized md)) := by
  intro ops out s ho h hne r
  have hi := LHD.reach (LHD.inv_init R cs md adm picks) ho h
  obtain ⟨t, z, s', h1, _, _, h2, h3, _⟩ := LHD.evict_spec hi hne
  refine ⟨(t.id, z), s', h1, ?_⟩
  show s.sizeMap.Perm (_ :: s'.sizeMap)
  rw [h3]
  exact LHD.perm_cons_filter hi.nodup h2

theorem C07_removeExact_LHD_partial (R : LHD.Rounding) (cs md : Nat) (adm : Adm) (picks : List Nat) :
    RemoveExact (LHD.algo R) LHD_cached (LHD.init R cs md adm picks) (Calls LHD.calls (Sized md)) := by
  intro ops out s ho h id
  have hi := LHD.reach (LHD.inv_init R cs md adm picks) ho h
  by_cases hin : id ∈ s.sizeMap.map Prod.fst
  · obtain ⟨s', h1, _, h3, _⟩ := LHD.remove_hit hi.toInv0 hin
    refine ⟨s', ?_, ?_⟩
    · show LHD.remove s id = _
      rw [h1]
      congr 2
      exact (decide_eq_true hin).symm
    · show s'.sizeMap.Perm _
      rw [h3]
  · refine ⟨s, ?_, ?_⟩
    · show LHD.remove s id = _
      rw [LHD.remove_miss hin]
      congr 2
      exact (decide_eq_false hin).symm
    · show s.sizeMap.Perm _
      rw [LHD.filter_notin hin]

/-- `core` is the whole state but the request counter and the admission policy's state. -/
theorem C08_rejectQuiet_LHD_partial (R : LHD.Rounding) (cs md : Nat) (adm : Adm) (picks : List Nat) :
    RejectQuiet (LHD.algo R) LHD_cached (fun s r => admitsBase s.base r) (fun s => { s with base := { s.base with nReq := 0, adm := .none } })
      (LHD.init R cs md adm picks) (Calls LHD.calls (Sized md)) := by
  intro ops out s ho h r hr hn ha
  have hi := LHD.reach (LHD.inv_init R cs md adm picks) ho h
  obtain ⟨s', h1, _, _, _, _, h2, _⟩ := LHD.get_spec hi (r := r) hr
  rw [decide_eq_false hn] at h1
  refine ⟨s', h1, ?_⟩
  rw [h2 hn ha, LHD.canInsert_eq]
  rfl

/-- a rejected request -/
example : 7 ∉ (LHD_cached LHD_demo).ids ∧ (fun s r => admitsBase s.base r) LHD_demo ⟨7, 11, -2⟩ = false := by decide +kernel

theorem C09_safe_LHD_partial (R : LHD.Rounding) (cs md : Nat) (adm : Adm) (picks : List Nat) :
    Safe (LHD.algo R) (LHD.init R cs md adm picks) (Calls LHD.calls (Sized md)) := by
  intro ops ho
  obtain ⟨out, s, h, _⟩ := LHD.run_spec ops (LHD.inv_init R cs md adm picks) ho
  exact ⟨out, s, h⟩

/-- C09 fails when an empty object is cached: its hit density is infinite, so an eviction that samples no other object finds no victim, and
the assertion that there is one fails. -/
theorem C09_safe_fails_LHD : ∃ (ops : List Op), (∀ op ∈ ops, Calls {} (SizeOk 0) op) ∧
    faultOf (LHD.algo .exact) (LHD.init .exact 10 0 .none []) ops = some .assertFail :=
  ⟨[.get ⟨1, 0, -2⟩, .evict ⟨0, 0, -2⟩], by simp [Calls, SizeOk, u32], by decide +kernel⟩

/-- C10: `to_evict` names a cached object of lowest hit density among those considered, changes nothing that is cached, and the next `evict`
evicts that object. -/
theorem C10_toEvict_LHD_partial (R : LHD.Rounding) (cs md : Nat) (adm : Adm) (picks : List Nat)
    (ops : List Op) (out : List Bool) (s : LHD.State)
    (ho : ∀ op ∈ ops, Calls LHD.calls (Sized md) op) (h : Reaches (LHD.algo R) (LHD.init R cs md adm picks) ops out s) (hne : LHD_cached s ≠ [])
    (r : Req) :
    ∃ t z s1 s', LHD.Worst R s t ∧ LHD.toEvict R s = .ok (t.id, s1) ∧ LHD_cached s1 = LHD_cached s ∧
      (LHD.algo R).evict s1 r = .ok s' ∧ (LHD_cached s).Perm ((t.id, z) :: LHD_cached s') := by
  have hi := LHD.reach (LHD.inv_init R cs md adm picks) ho h
  obtain ⟨t, z, s1, s', h1, h2, h3, h4, _, h5, h6⟩ := LHD.toEvict_spec hi hne
  refine ⟨t, z, s1, s', h3, h1, h2, h4, ?_⟩
  show s.sizeMap.Perm (_ :: s'.sizeMap)
  rw [h6]
  exact LHD.perm_cons_filter hi.nodup h5

example : ∃ s1, LHD.toEvict .exact LHD_demo = .ok (1, s1) := ⟨_, res_ok LHD_demo (by decide +kernel)⟩

/-- C10: `to_evict`, then `remove` of the announced object, then `evict`: the announced object is looked up and not found; the assertion
fails. -/
theorem C10_stale_fails_LHD : ∃ (s s1 s2 : LHD.State),
    Reaches (LHD.algo .exact) (LHD.init .exact 10 0 .none []) [.get ⟨1, 1, -2⟩, .get ⟨2, 1, -2⟩] [false, false] s ∧
    LHD.toEvict .exact s = .ok (1, s1) ∧ (LHD.algo .exact).remove s1 1 = .ok (true, s2) ∧
    (LHD.algo .exact).evict s2 ⟨0, 0, -2⟩ = .error .assertFail :=
  ⟨_, _, _, reaches_after (by decide +kernel), res_ok (LHD.init .exact 10 0 .none []) (by decide +kernel),
    res_ok (LHD.init .exact 10 0 .none []) (by decide +kernel), res_err (by decide +kernel)⟩

/-- C84: an admitted miss evicts, one after the other, objects of lowest hit density among those considered: 8 (later 32) drawn at random,
and those admitted recently. -/
theorem C84_miss_LHD_partial (R : LHD.Rounding) (cs md : Nat) (adm : Adm) (picks : List Nat)
    (ops : List Op) (out : List Bool) (s : LHD.State)
    (ho : ∀ op ∈ ops, Calls LHD.calls (Sized md) op) (h : Reaches (LHD.algo R) (LHD.init R cs md adm picks) ops out s)
    (r : Req) (hr : Sized md r) (hn : r.id ∉ (LHD_cached s).ids) (ha : admitsBase s.base r = true) :
    ∃ s' vs s1, (LHD.algo R).get s r = .ok (false, s') ∧
      LHD.Evictions R { s with base := { s.base with nReq := s.base.nReq + 1, adm := (s.base.adm.admit r).2 } } vs s1 ∧
      (LHD_cached s).Perm (vs ++ LHD_cached s1) ∧ LHD_cached s' = (r.id, r.size) :: LHD_cached s1 := by
  have hi := LHD.reach (LHD.inv_init R cs md adm picks) ho h
  obtain ⟨s', h1, _, _, _, _, _, h2⟩ := LHD.get_spec hi (r := r) hr
  obtain ⟨vs, kept, k1, k2, _, _, s1, k3, k4⟩ := h2 hn ha
  rw [decide_eq_false hn] at h1
  rw [LHD.canInsert_eq] at k3
  refine ⟨s', vs, s1, h1, k3, ?_, ?_⟩
  · show s.sizeMap.Perm (vs ++ s1.sizeMap)
    rw [k4]; exact k1
  · show s'.sizeMap = _ :: s1.sizeMap
    rw [k4]; exact k2

/-- in the demo, the objects considered by the next eviction, with their hit densities -/
example : (LHD.considered LHD_demo).map (fun t => (t.id, LHD.dens .exact LHD_demo t)) =
    [(6, 32), (1, 8), (8, 17), (6, 32), (1, 8), (1, 8), (1, 8), (1, 8)] := by decide +kernel

/-- C84: an eviction is recorded in the statistics: one more eviction in the class and at the age of the evicted object, which is one of
lowest hit density among those considered. -/
theorem C84_evict_LHD_partial (R : LHD.Rounding) (cs md : Nat) (adm : Adm) (picks : List Nat)
    (ops : List Op) (out : List Bool) (s : LHD.State)
    (ho : ∀ op ∈ ops, Calls LHD.calls (Sized md) op) (h : Reaches (LHD.algo R) (LHD.init R cs md adm picks) ops out s) (hne : LHD_cached s ≠ [])
    (r : Req) :
    ∃ t s', (LHD.algo R).evict s r = .ok s' ∧ LHD.Worst R s t ∧ LHD_cached s' = (LHD_cached s).filter (fun x => x.1 ≠ t.id) ∧
      s.tags.Perm (t :: s'.tags) ∧ ∀ c a, (s'.classes c).hits a = (s.classes c).hits a ∧ (s'.classes c).dens a = (s.classes c).dens a ∧
        (s'.classes c).evictions a =
          if c = LHD.objClass t ∧ a = LHD.objAge s t then R.rnd ((s.classes c).evictions a + 1) else (s.classes c).evictions a := by
  have hi := LHD.reach (LHD.inv_init R cs md adm picks) ho h
  obtain ⟨t, s', h1, h2, h3, h4, h5⟩ := LHD.evict_counts hi hne
  refine ⟨t, s', h1, h2, h3, h5, fun c a => ?_⟩
  rw [h4]
  unfold LHD.set LHD.addEviction LHD.set
  by_cases e : c = LHD.objClass t
  · subst e
    simp only [if_true, true_and]
    by_cases e2 : a = LHD.objAge s t
    · subst e2; simp
    · simp [e2]
  · simp [e]

/-- C84: a hit is recorded in the statistics: one more hit in the class and at the age of the object.  The object then remembers the ages of
its last two hits, and the time.  Every 2^20 accesses the hit densities are computed anew from the statistics (here with exact
arithmetic). -/
theorem C84_hit_LHD_partial (R : LHD.Rounding) (cs md : Nat) (adm : Adm) (picks : List Nat)
    (ops : List Op) (out : List Bool) (s : LHD.State)
    (ho : ∀ op ∈ ops, Calls LHD.calls (Sized md) op) (h : Reaches (LHD.algo R) (LHD.init R cs md adm picks) ops out s)
    (r : Req) (hr : Sized md r) (hin : r.id ∈ (LHD_cached s).ids) :
    ∃ i t s', s.tags[i]? = some t ∧ t.id = r.id ∧ (LHD.algo R).find s r true = .ok (true, s') ∧
      (∃ e, s'.tags = s.tags.set i { t with timestamp := s.timestamp, lastLastHitAge := t.lastHitAge, lastHitAge := LHD.objAge s t, size := R.rnd r.size, explorer := e }) ∧
      ((s.timestamp + 1) % 2 ^ 20 ≠ 0 → ∀ c a, (s'.classes c).evictions a = (s.classes c).evictions a ∧ (s'.classes c).dens a = (s.classes c).dens a ∧
        (s'.classes c).hits a = if c = LHD.objClass t ∧ a = LHD.objAge s t then R.rnd ((s.classes c).hits a + 1) else (s.classes c).hits a) ∧
      ((s.timestamp + 1) % 2 ^ 20 = 0 → R = .exact → ∀ c a, a < 19999 → (s'.classes c).dens a = modelled (s'.classes c).hits (s'.classes c).evictions a) := by
  have hi := LHD.reach (LHD.inv_init R cs md adm picks) ho h
  obtain ⟨i, t, s', h1, h2, h3, h4, h5, h6⟩ := LHD.find_counts hi.toInv0 hr hin
  refine ⟨i, t, s', h1, h2, h3, ⟨_, h4⟩, fun hno c a => ?_, h6⟩
  rw [(h5 hno).2]
  unfold LHD.set LHD.addHit LHD.set
  by_cases e : c = LHD.objClass t
  · subst e
    simp only [if_true, true_and]
    by_cases e2 : a = LHD.objAge s t
    · subst e2; simp
    · simp [e2]
  · simp [e]

/-- C84: an inserted object counts as hit at ages 0 and 20000; it becomes an explorer when the random number is a multiple of 32, budget is
left and there were fewer than 50 reconfigurations.  Insertions are accesses: every 2^20 accesses the hit densities are computed anew. -/
theorem C84_insert_LHD_partial (R : LHD.Rounding) (cs md : Nat) (adm : Adm) (picks : List Nat)
    (ops : List Op) (out : List Bool) (s : LHD.State)
    (ho : ∀ op ∈ ops, Calls LHD.calls (Sized md) op) (h : Reaches (LHD.algo R) (LHD.init R cs md adm picks) ops out s)
    (r : Req) (hr : Sized md r) (hn : r.id ∉ (LHD_cached s).ids) :
    ∃ s' e, (LHD.algo R).insert s r = .ok s' ∧ (e = true ↔ s.picks.headD 0 % 32 = 0 ∧ 0 < s.budget ∧ s.numReconfigurations < 50) ∧
      s'.tags = s.tags ++ [{ timestamp := s.timestamp, lastLastHitAge := 20000, lastHitAge := 0, app := 1, id := r.id, size := R.rnd r.size, explorer := e }] ∧
      ((s.timestamp + 1) % 2 ^ 20 ≠ 0 → s'.classes = s.classes) ∧
      ((s.timestamp + 1) % 2 ^ 20 = 0 → R = .exact → ∀ c a, a < 19999 → (s'.classes c).dens a = modelled (s'.classes c).hits (s'.classes c).evictions a) := by
  have hi := LHD.reach (LHD.inv_init R cs md adm picks) ho h
  obtain ⟨s', h1, h2, h3, h4⟩ := LHD.insert_counts hi.toInv0 hr hn
  refine ⟨s', _, h1, ?_, h2, fun hh => (h3 hh).2, h4⟩
  simp only [LHD.explorer, LHD.explore, LHD.exploreInverse, Bool.and_eq_true, decide_eq_true_eq, beq_iff_eq, gt_iff_lt]
  exact and_assoc

/-- C84: a request that hits or is admitted counts as one access, others as none. -/
theorem C84_clock_LHD_partial (R : LHD.Rounding) (cs md : Nat) (adm : Adm) (picks : List Nat)
    (ops : List Op) (out : List Bool) (s : LHD.State)
    (ho : ∀ op ∈ ops, Calls LHD.calls (Sized md) op) (h : Reaches (LHD.algo R) (LHD.init R cs md adm picks) ops out s)
    (r : Req) (hr : Sized md r) :
    ∃ b s', (LHD.algo R).get s r = .ok (b, s') ∧
      s'.timestamp = s.timestamp + (if r.id ∈ (LHD_cached s).ids ∨ admitsBase s.base r = true then 1 else 0) := by
  have hi := LHD.reach (LHD.inv_init R cs md adm picks) ho h
  obtain ⟨s', h1, _, _, h2, _⟩ := LHD.get_spec hi (r := r) hr
  exact ⟨_, s', h1, h2⟩

/-- C84: there is one reconfiguration every 2^20 accesses.  Before the first, the hit density of class c at age a is (c + 1) / (a + 1), and an
age is 2^10 accesses. -/
theorem C84_early_LHD_partial (R : LHD.Rounding) (cs md : Nat) (adm : Adm) (picks : List Nat)
    (ops : List Op) (out : List Bool) (s : LHD.State)
    (ho : ∀ op ∈ ops, Calls LHD.calls (Sized md) op) (h : Reaches (LHD.algo R) (LHD.init R cs md adm picks) ops out s) :
    s.numReconfigurations = s.timestamp / 2 ^ 20 ∧
    (s.timestamp < 2 ^ 20 → s.shift = 10 ∧ ∀ c a, (s.classes c).dens a = R.rnd (((c + 1 : Nat) : Rat) / ((a + 1 : Nat) : Rat))) := by
  have hi := LHD.reach (LHD.inv_init R cs md adm picks) ho h
  exact ⟨hi.t.clk.num, hi.t.clk.early⟩

example : LHD_demo.timestamp = 11 := by decide +kernel

/-- C84: with exact arithmetic, the budget for explorers plus the bytes of the explorers that are cached stays what it was, one percent of
the cache size, if the client never removes objects. -/
theorem C84_budget_LHD_partial (cs md : Nat) (adm : Adm) (picks : List Nat)
    (ops : List Op) (out : List Bool) (s : LHD.State)
    (ho : ∀ op ∈ ops, Calls { upd := false, rem := false } (Sized md) op)
    (h : Reaches (LHD.algo .exact) (LHD.init .exact cs md adm picks) ops out s) :
    s.budget + LHD.explorers s.tags = ((cs / 100 : Nat) : Rat) := by
  have ho' : ∀ op ∈ ops, Calls LHD.calls (Sized md) op := by
    intro op hh
    have := ho op hh
    cases op <;> simp_all [Calls]
  obtain ⟨out', s', h1, h2, h3, _⟩ := LHD.run_spec ops (LHD.inv_init .exact cs md adm picks) ho'
  unfold Reaches at h
  rw [h] at h1
  cases h1
  have hb := h3 (fun op hh id e => by have := ho op hh; rw [e] at this; simp [Calls] at this) rfl
  unfold LHD.balance at hb
  rw [hb]
  have e : (LHD.init .exact cs md adm picks).budget = ((cs / 100 : Nat) : Int) := by
    show LHD.toInt ((cs : Rat) * (1 / 100)) = _
    unfold LHD.toInt
    rw [if_pos (by positivity)]
    have : (cs : Rat) * (1 / 100) = ((cs : Int) : Rat) / ((100 : Nat) : Rat) := by push_cast; ring
    rw [this]
    have := Rat.floor_intCast_div_natCast (cs : Int) 100
    exact_mod_cast this
  rw [e]
  rw [show (LHD.init .exact cs md adm picks).tags = [] from rfl]
  rw [show LHD.explorers [] = 0 from rfl, add_zero]
  exact Int.cast_natCast _

/-- C84: an explorer that the client removes does not give its bytes back: here the budget is gone for good. -/
theorem C84_budget_fails_LHD : ∃ (ops : List Op) (s : LHD.State), (∀ op ∈ ops, Calls LHD.calls (Sized 0) op) ∧
    Reaches (LHD.algo .exact) (LHD.init .exact 100 0 .none []) ops [false, true] s ∧ LHD_cached s = [] ∧ s.tags = [] ∧ s.budget = 0 ∧
    (LHD.init .exact 100 0 .none []).budget = 1 :=
  ⟨[.get ⟨1, 1, -2⟩, .remove 1], _, by simp [Calls, Sized, u32], reaches_after (by decide +kernel), by decide +kernel, by decide +kernel,
    by decide +kernel, by decide +kernel⟩

/-- with the budget accounted for: an explorer is cached, and the budget is smaller by its size -/
example : ((after (LHD.algo .exact) (LHD.init .exact 1000 0 .none []) [.get ⟨1, 4, -2⟩]).budget,
    LHD.explorers (after (LHD.algo .exact) (LHD.init .exact 1000 0 .none []) [.get ⟨1, 4, -2⟩]).tags) = (6, 4) := by decide +kernel

end Verif.Props
