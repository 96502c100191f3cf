import Verif.Proof.BeladySize
import Verif.Props.Demo
/-!
# Properties of BeladySize (libCacheSim/cache/eviction/BeladySize.c)

The random choices (`picks`) and the number `n` of objects sampled per eviction are arbitrary.  In general an eviction can fail to end (see the
`_fails` theorems), so the first group of theorems is about calls that return.  On a trace that is annotated with its true next accesses every
request is answered: C46.
-/

namespace Verif.Props
open Verif Verif.Spec
set_option linter.unusedVariables false

/-- what BeladySize has cached -/
abbrev BeladySize_cached (s : BeladySize.State) : Contents := s.base.cached

def BeladySize_demo : BeladySize.State := after (BeladySize.algo 2) (BeladySize.init 10 0 .none [7, 3, 12, 0, 5, 2, 8, 3, 4]) demoNext

theorem BeladySize_demo_reached : (∀ op ∈ demoNext, Calls {} (SizeOk 0) op) ∧
    Reaches (BeladySize.algo 2) (BeladySize.init 10 0 .none [7, 3, 12, 0, 5, 2, 8, 3, 4]) demoNext
      [false, false, true, false, false, false, true, false, true, false, false, true, false, false, true, true, true] BeladySize_demo ∧
    BeladySize_cached BeladySize_demo = [(8, 1), (2, 3), (1, 4)] := by
  refine ⟨?_, reaches_after (by decide +kernel), by decide +kernel⟩
  simp [demoNext, Calls, SizeOk, u32]


theorem C01_capacity_BeladySize_partial (n cs md : Nat) (adm : Adm) (picks : List Nat) :
    Capacity (BeladySize.algo n) (BeladySize.init cs md adm picks) (Calls {} (SizeOk md)) cs :=
  (BeladySize.spec n cs md).cond.capacity (BeladySize.inv_init cs md adm picks)

example : (BeladySize.algo 2).occ BeladySize_demo > 0 := by decide +kernel

theorem C02_accounting_BeladySize_partial (n cs md : Nat) (adm : Adm) (picks : List Nat) :
    Accounting (BeladySize.algo n) BeladySize_cached (BeladySize.init cs md adm picks) (Calls {} (SizeOk md)) md :=
  (BeladySize.spec n cs md).cond.accounting (BeladySize.inv_init cs md adm picks)

example : (BeladySize.algo 2).nObj BeladySize_demo > 1 := by decide +kernel

/-- Every call that returns answers rightly. -/
theorem C03_hitIffCached_BeladySize_partial (n cs md : Nat) (adm : Adm) (picks : List Nat) :
    HitIffCachedIf (BeladySize.algo n) BeladySize_cached (BeladySize.init cs md adm picks) (Calls {} (SizeOk md)) :=
  (BeladySize.spec n cs md).cond.hitIffCached (BeladySize.inv_init cs md adm picks)

theorem C04_noPhantom_BeladySize_partial (n cs md : Nat) (adm : Adm) (picks : List Nat) :
    NoPhantom (BeladySize.algo n) BeladySize_cached (BeladySize.init cs md adm picks) (Calls {} (SizeOk md)) :=
  (BeladySize.spec n cs md).cond.noPhantom (BeladySize.inv_init cs md adm picks) rfl

theorem C04_addsOnlyRequested_BeladySize_partial (n cs md : Nat) (adm : Adm) (picks : List Nat) :
    AddsOnlyRequested (BeladySize.algo n) BeladySize_cached (BeladySize.init cs md adm picks) (Calls {} (SizeOk md)) :=
  (BeladySize.spec n cs md).cond.addsOnlyRequested (BeladySize.inv_init cs md adm picks)

/-- A `remove` that returns is exact. -/
theorem C07_removeExact_BeladySize_partial (n cs md : Nat) (adm : Adm) (picks : List Nat) :
    RemoveExactIf (BeladySize.algo n) BeladySize_cached (BeladySize.init cs md adm picks) (Calls {} (SizeOk md)) :=
  (BeladySize.spec n cs md).cond.removeExact (BeladySize.inv_init cs md adm picks)

/-! ## C46: annotated traces -/

/-- size times the number of requests before the object is requested again, if `rest` are the requests to come (the current one first) -/
def sizeDistance (rest : List Req) (x : ObjId × Nat) : Int := x.2 * ((rest.map Req.id).idxOf x.1 : Nat)

/-- C46.  Let a trace carry the true number of the next request for each object (counted from 1, `INT64_MAX` if there is none).  Run the part
`pre`, and look at the request `r` after it.  All requests are answered; what is cached is requested again; a hit keeps the object exactly if it
is requested again; a miss evicts, one after the other and no more than needed, objects of largest size times distance among `n` sampled ones,
and caches the object exactly if it is requested again.  (The trace has fewer than 2^31 requests, so that the products fit.) -/
theorem C46_trace_BeladySize_partial (n : Nat) (hn : 0 < n) (cs md : Nat) (adm : Adm) (picks : List Nat) (pre : List Req) (r : Req) (post : List Req)
    (hann : Annotated (fun i => (i : Int) + 1) 0 (pre ++ r :: post)) (hlen : (pre ++ r :: post).length < 2 ^ 31)
    (hok : ∀ q ∈ pre ++ r :: post, SizeOk md q) :
    ∃ out s s', (BeladySize.algo n).gets (BeladySize.init cs md adm picks) pre = .ok (out, s) ∧
      (BeladySize.algo n).occ s ≤ cs ∧ (BeladySize.algo n).occ s = (bytes md (BeladySize_cached s) : Nat) ∧
      (∀ x ∈ BeladySize_cached s, x.1 ∈ (r :: post).map Req.id) ∧
      (BeladySize.algo n).get s r = .ok (decide (r.id ∈ (BeladySize_cached s).ids), s') ∧
      if r.id ∈ (BeladySize_cached s).ids then
        (BeladySize_cached s').Perm (if r.id ∈ post.map Req.id then BeladySize_cached s else (BeladySize_cached s).filter (fun x => x.1 ≠ r.id))
      else if admitsBase s.base r = true then
        ∃ vs kept, Sample.Victims n (fun x => - sizeDistance (r :: post) x) (BeladySize_cached s) s.picks vs kept s'.picks ∧
          BeladySize_cached s' = (if r.id ∈ post.map Req.id then (r.id, r.size % u32) :: kept else kept) ∧
          ∀ us v, vs = us ++ [v] → bytes md (v :: kept) + r.size + md > cs
      else BeladySize_cached s' = BeladySize_cached s := by
  simp only [List.length_append, List.length_cons] at hlen
  have h0 : BeladySize.TInv cs md 0 ((pre ++ r :: post).map Req.id) (BeladySize.init cs md adm picks) :=
    ⟨BeladySize.inv_init cs md adm picks, rfl, by simp [BeladySize.init, Base.init]⟩
  obtain ⟨out, s, h1, h2⟩ := BeladySize.run_trace (n := n) hn pre (r :: post) 0 (BeladySize.init cs md adm picks) (by simp only [List.length_cons]; omega)
    (fun q hq => hok q (by simp [hq])) hann h0
  have ha := BeladySize.annotated_append pre 0 (r :: post) hann
  obtain ⟨s', g1, _, _, g4⟩ := BeladySize.get_step (n := n) hn (t := 0 + pre.length) (post := post.map Req.id) (r := r)
    (by simp only [List.length_map]; omega) (hok r (by simp)) ha.1 h2
  refine ⟨out, s, s', h1, ?_, ?_, ?_, g1, ?_⟩
  · exact (BeladySize.spec n cs md).cond.cap h2.b
  · rw [bytes_eq_charge]; exact (BeladySize.spec n cs md).cond.occ h2.b
  · intro x hx
    obtain ⟨o, ho, rfl⟩ := List.mem_map.1 hx
    exact (h2.next o ho).1
  · by_cases hin : r.id ∈ (BeladySize_cached s).ids
    · rw [if_pos hin] at g4 ⊢; exact g4.2
    · rw [if_neg hin] at g4 ⊢
      by_cases had : admitsBase s.base r = true
      · rw [if_pos had] at g4 ⊢; exact g4
      · rw [if_neg had] at g4 ⊢; exact g4.1

/-- a trace with objects of different sizes -/
def sizedTrace : List Req :=
  [⟨1, 4, 5⟩, ⟨2, 5, 4⟩, ⟨3, 3, 6⟩, ⟨2, 5, int64Max⟩, ⟨1, 4, 7⟩, ⟨3, 3, int64Max⟩, ⟨1, 4, int64Max⟩]

/-- The trace is annotated.  The third request has to evict: object 1 (4 bytes, used after 2 further requests) counts 8, object 2 (5 bytes,
used next) counts 5, so object 1 goes. -/
example : Annotated (fun i => (i : Int) + 1) 0 sizedTrace ∧ (∀ q ∈ sizedTrace, SizeOk 0 q) ∧
    ansOf ((BeladySize.algo 2).gets (BeladySize.init 10 0 .none [0, 1]) sizedTrace) = some [false, false, false, true, false, true, true] ∧
    [(1, 4), (2, 5)].map (sizeDistance (sizedTrace.drop 2)) = [8, 5] ∧
    BeladySize_cached (stOf (BeladySize.init 10 0 .none [0, 1]) ((BeladySize.algo 2).gets (BeladySize.init 10 0 .none [0, 1]) (sizedTrace.take 3))) =
      [(3, 3), (2, 5)] := by
  refine ⟨?_, ?_, ?_, ?_, ?_⟩
  · simp only [Annotated, sizedTrace]; decide
  · simp [sizedTrace, SizeOk, u32]
  · decide +kernel
  · decide +kernel
  · decide +kernel

/-- C46, C09: on a trace without next accesses (-2) a miss that needs room never ends: every score is below -1, and `to_evict` calls itself for
ever. -/
theorem C46_unannotated_fails_BeladySize : ∃ ops : List Op, (∀ op ∈ ops, Calls {} (SizeOk 0) op) ∧
    faultOf (BeladySize.algo 128) (BeladySize.init 1 0 .none []) ops = some .diverge :=
  ⟨[.get ⟨1, 1, -2⟩, .get ⟨2, 1, -2⟩], by simp [Calls, SizeOk, u32], by decide +kernel⟩

/-- C46, C05, C06: a miss on an object that is not requested again evicts objects that are, to make room for it, and then does not insert
it. -/
theorem C46_uselessEviction_fails_BeladySize : ∃ (trace : List Req) (s s' : BeladySize.State),
    Annotated (fun i => (i : Int) + 1) 0 (trace ++ [⟨2, 1, int64Max⟩, ⟨1, 1, int64Max⟩]) ∧
    (BeladySize.algo 128).gets (BeladySize.init 1 0 .none []) trace = .ok ([false], s) ∧ BeladySize_cached s = [(1, 1)] ∧
    (BeladySize.algo 128).get s ⟨2, 1, int64Max⟩ = .ok (false, s') ∧ BeladySize_cached s' = [] :=
  ⟨[⟨1, 1, 3⟩], _, _, by simp only [Annotated, List.cons_append, List.nil_append]; decide,
    res_ok (BeladySize.init 1 0 .none []) (by decide +kernel), by decide +kernel,
    res_ok (BeladySize.init 1 0 .none []) (by decide +kernel), by decide +kernel⟩

end Verif.Props
