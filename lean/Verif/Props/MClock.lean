import Verif.Proof.MClock
import Verif.Props.Demo
/-!
# Properties of MClock (libCacheSim/cache/eviction/priv/MClock.c)

The statements are those of `Verif/Spec/Cache.lean` and `Verif/Spec/MultiHand.lean`.  They hold for every score function, every admission policy, every list of hands and every cache size
such that the hands are at different positions of the full cache (`MClock_fits`), and for requests of one common size (larger ones that the cache does not admit may be among them).  What
happens otherwise is shown by the theorems at the end.
-/

namespace Verif.Props
open Verif Verif.Spec
set_option linter.unusedVariables false
set_option maxRecDepth 20000

/-- what MClock has cached -/
abbrev MClock_cached (s : MClock.State) : Contents := s.q.base.cached

/-- the calls but `remove` and `evict` -/
abbrev MClock_calls : Perms := { rem := false, ev := false }

/-- requests of size `u`, or larger than the cache -/
abbrev MClock_even (cs u : Nat) (r : Req) : Prop := r.size = u ∨ cs < r.size

/-- The objects have a positive size `u`, there are at least two hands, the first one belongs at the head and the last one at the tail, and in a queue of as many objects as fit
all hands are at different positions. -/
structure MClock_fits (K : MClock.Conf) (cs u : Nat) : Prop where
  pos : 0 < u
  small : u < u32
  two : 2 ≤ K.first.length
  head : (K.first.head?.map (fun f => f (cs / u))) = some 0
  tail : ∀ f, K.first.getLast? = some f → cs / u ≤ f (cs / u)
  apart : (MultiHand.places (cs / u) 0 K.first).Pairwise (· < ·)

theorem MClock_fits.fits {K : MClock.Conf} {cs u : Nat} (h : MClock_fits K cs u) : MClock.Fits K cs u := ⟨h.pos, h.small, h.two, h.head, h.tail, h.apart⟩

/-- The positions of the default hands. -/
theorem MClock_default_places (score : Nat → List Int → Int) (n : Nat) (hn : 8 ≤ n) :
    MultiHand.places n 0 (MClock.default score).first = [0, (n + 3) / 4, (n + 1) / 2, (3 * n + 3) / 4, n - 1] := by
  show [max 0 0, max (max 0 0 + 1) ((n + 3) / 4), max (max (max 0 0 + 1) ((n + 3) / 4) + 1) ((n + 1) / 2),
    max (max (max (max 0 0 + 1) ((n + 3) / 4) + 1) ((n + 1) / 2) + 1) ((3 * n + 3) / 4), n - 1] = _
  have h1 : max (max 0 0 + 1) ((n + 3) / 4) = (n + 3) / 4 := by omega
  have h2 : max ((n + 3) / 4 + 1) ((n + 1) / 2) = (n + 1) / 2 := by omega
  have h3 : max ((n + 1) / 2 + 1) ((3 * n + 3) / 4) = (3 * n + 3) / 4 := by omega
  rw [h1, h2, h3]
  rfl

/-- The default parameters fit whenever at least eight objects do. -/
theorem MClock_default_fits (score : Nat → List Int → Int) (cs u : Nat) (hu : 0 < u) (hu' : u < u32) (hn : 8 * u ≤ cs) : MClock_fits (MClock.default score) cs u := by
  have h8 : 8 ≤ cs / u := (Nat.le_div_iff_mul_le hu).2 hn
  refine ⟨hu, hu', by simp [MClock.default], by simp [MClock.default], ?_, ?_⟩
  · intro f hf
    have : f = fun n => n := by simpa [MClock.default] using hf.symm
    rw [this]; exact Nat.le_refl _
  · rw [MClock_default_places score _ h8]
    generalize cs / u = n at h8
    simp only [List.pairwise_cons, List.mem_cons, List.not_mem_nil, or_false, forall_eq_or_imp, forall_eq, false_implies, implies_true, List.Pairwise.nil, and_true]
    omega

/-! ## The demo -/

/-- the distance to the next access, or the sum of several -/
def MClock_score (now : Nat) (l : List Int) : Int := (l.map (fun x : Int => x - (now : Int))).sum

abbrev MClock_K : MClock.Conf := MClock.default MClock_score

/-- eight objects of two bytes, with evictions by different hands, hits, an object that is too large, a lookup and an insertion -/
def MClock_ops : List Op := [.get ⟨1, 2, 20⟩, .get ⟨2, 2, 30⟩, .get ⟨3, 2, 40⟩, .get ⟨4, 2, 50⟩, .get ⟨5, 2, 60⟩, .get ⟨6, 2, 70⟩, .insert ⟨7, 2, 80⟩, .get ⟨8, 2, 90⟩, .get ⟨3, 2, 99⟩,
  .get ⟨9, 2, 15⟩, .get ⟨10, 2, 12⟩, .find ⟨2, 2, 0⟩ false, .get ⟨50, 50, 100⟩, .get ⟨10, 2, 13⟩, .get ⟨11, 2, 14⟩, .get ⟨8, 2, 100⟩, .get ⟨12, 2, 200⟩, .get ⟨13, 2, 16⟩, .find ⟨13, 2, 17⟩ true, .get ⟨14, 2, 25⟩]

def MClock_start : MClock.State := MClock.init MClock_K 17 .none 0
def MClock_demo : MClock.State := after (MClock.algo MClock_K) MClock_start MClock_ops

theorem MClock_demo_reached : Reaches (MClock.algo MClock_K) MClock_start MClock_ops
      [false, false, false, false, false, false, true, false, true, false, false, true, false, true, false, false, false, false, true, false] MClock_demo ∧
    MClock_demo.q.q = [14, 13, 11, 10, 9, 3, 2, 1] ∧ MClock_demo.hands = [.obj 14, .obj 11, .obj 9, .obj 2, .obj 1] :=
  ⟨reaches_after (by decide +kernel), by decide +kernel, by decide +kernel⟩

/-- the hypotheses of the theorems below: the parameters, the calls, the full cache; an admitted miss that needs an eviction, a rejected one -/
example : MClock_fits MClock_K 17 2 ∧ (∀ op ∈ MClock_ops, Calls MClock_calls (MClock_even 17 2) op) ∧ (MClock_cached MClock_demo).length = 17 / 2 ∧
    7 ∉ (MClock_cached MClock_demo).ids ∧ admitsBase MClock_demo.q.base ⟨7, 2, 40⟩ = true ∧ admitsBase MClock_demo.q.base ⟨7, 18, 40⟩ = false := by
  refine ⟨MClock_default_fits _ 17 2 (by omega) (by decide) (by omega), ?_, ?_, ?_, ?_, ?_⟩
  · intro op hop
    simp only [MClock_ops, List.mem_cons, List.not_mem_nil, or_false] at hop
    rcases hop with rfl | rfl | rfl | rfl | rfl | rfl | rfl | rfl | rfl | rfl | rfl | rfl | rfl | rfl | rfl | rfl | rfl | rfl | rfl | rfl <;> simp [Calls, MClock_even]
  all_goals decide +kernel

/-- three hands, and a score over two objects -/
example : MClock_fits { first := [fun _ => 0, fun n => (n + 1) / 2, fun n => n], consider := 2, score := MClock_score } 4 1 := by
  refine ⟨by omega, by decide, by simp, by simp, ?_, by decide⟩
  intro f hf
  have : f = fun n => n := by simpa using hf.symm
  rw [this]; exact Nat.le_refl _

section
variable (K : MClock.Conf) (cs u : Nat) (hf : MClock_fits K cs u) (adm : Adm)
include hf

theorem C01_capacity_MClock_partial : Capacity (MClock.algo K) (MClock.init K cs adm 0) (Calls MClock_calls (MClock_even cs u)) cs :=
  (MClock.strong hf.fits).capacity (MClock.inv_init adm)

theorem C02_accounting_MClock_partial : Accounting (MClock.algo K) MClock_cached (MClock.init K cs adm 0) (Calls MClock_calls (MClock_even cs u)) 0 :=
  (MClock.strong hf.fits).accounting (MClock.inv_init adm)

theorem C03_hitIffCached_MClock_partial : HitIffCached (MClock.algo K) MClock_cached (MClock.init K cs adm 0) (Calls MClock_calls (MClock_even cs u)) :=
  (MClock.strong hf.fits).hitIffCached (MClock.inv_init adm)

theorem C04_noPhantom_MClock_partial : NoPhantom (MClock.algo K) MClock_cached (MClock.init K cs adm 0) (Calls MClock_calls (MClock_even cs u)) :=
  (MClock.strong hf.fits).noPhantom (MClock.inv_init adm) rfl

theorem C04_addsOnlyRequested_MClock_partial : AddsOnlyRequested (MClock.algo K) MClock_cached (MClock.init K cs adm 0) (Calls MClock_calls (MClock_even cs u)) :=
  (MClock.strong hf.fits).addsOnlyRequested (MClock.inv_init adm)

theorem C05_admittedMissCached_MClock_partial : AdmittedMissCached (MClock.algo K) MClock_cached (fun s r => admitsBase s.q.base r) (MClock.init K cs adm 0) (Calls MClock_calls (MClock_even cs u)) :=
  (MClock.strong hf.fits).admittedMissCached (MClock.inv_init adm)

theorem C06_evictOnDemand_MClock_partial : EvictOnDemand (MClock.algo K) MClock_cached (MClock.init K cs adm 0) (Calls MClock_calls (MClock_even cs u)) cs 0 :=
  (MClock.strong hf.fits).evictOnDemand (MClock.inv_init adm)

/-- `core` is the whole state but the request counter and the admission policy's state. -/
theorem C08_rejectQuiet_MClock_partial : RejectQuiet (MClock.algo K) MClock_cached (fun s r => admitsBase s.q.base r) MClock.core (MClock.init K cs adm 0) (Calls MClock_calls (MClock_even cs u)) :=
  (MClock.strong hf.fits).rejectQuiet (MClock.inv_init adm)

theorem C09_safe_MClock_partial : Safe (MClock.algo K) (MClock.init K cs adm 0) (Calls MClock_calls (MClock_even cs u)) :=
  (MClock.strong hf.fits).safe (MClock.inv_init adm)

/-- C96: on every trace of requests of one size, MClock gives the hits, and leaves the queue, of the discipline with hands at fixed positions. -/
theorem C96_follows_MClock_partial (rs : List Req) (hr : ∀ r ∈ rs, MClock_even cs u r) :
    ∃ s, Reaches (MClock.algo K) (MClock.init K cs .none 0) (rs.map Op.get)
        (MultiHand.serveAll { cap := cs / u, size := cs, pos := MultiHand.places (cs / u) 0 K.first, consider := K.consider, score := K.score } 0 [] rs) s ∧
      s.q.q = (MultiHand.queueAfter { cap := cs / u, size := cs, pos := MultiHand.places (cs / u) 0 K.first, consider := K.consider, score := K.score } 0 [] rs).map (·.id) := by
  obtain ⟨s, l, h1, h2, h3⟩ := MClock.gets_spec hf.fits rs (MClock.Inv.init .none) rfl hr
  refine ⟨s, h1, ?_⟩
  have h4 : (MultiHand.queueAfter (MClock.conf K cs u) 0 [] rs).map (·.id) = l.map (·.id) := by
    have h5 : MClock.items l = MultiHand.queueAfter (MClock.conf K cs u) 0 [] rs := h3
    rw [← h5]; unfold MClock.items; rw [List.map_map]; rfl
  rw [h2.rep.q]
  exact h4.symm

/-- C96: whenever the cache is full, the hands are where they were put at the first eviction: counted from the newest object they are always at the same positions. -/
theorem C96_handsFixed_MClock_partial (ops : List Op) (out : List Bool) (s : MClock.State) (hops : ∀ op ∈ ops, Calls MClock_calls (MClock_even cs u) op)
    (hreach : Reaches (MClock.algo K) (MClock.init K cs adm 0) ops out s) (hfull : (MClock_cached s).length = cs / u) :
    s.hands = K.first.map (fun _ => .null) ∨ s.hands = (MultiHand.places (cs / u) 0 K.first).map (fun p => MClock.Ptr.of s.q.q[p]?) := by
  obtain ⟨l, h⟩ := (MClock.strong hf.fits).reach (MClock.inv_init adm) hops hreach
  have hl : l.length = cs / u := by
    rw [← hfull]; have := h.rep.cached.length_eq; simpa using this.symm
  cases h.phase with
  | start h1 => exact .inl h1
  | full h1 h2 =>
    right
    rw [h2]
    apply List.map_congr_left
    intro p _
    unfold MClock.P
    rw [h.rep.q]
  | mid _ _ _ _ h1 => omega

end

/-- C96 with the default parameters and room for `n ≥ 8` objects: the hands are at the positions 0, ⌈n/4⌉, ⌈n/2⌉, ⌈3n/4⌉ and n−1, and each miss evicts the one of these five objects with the highest score. -/
theorem C96_default_MClock_partial (score : Nat → List Int → Int) (cs u n : Nat) (hu : 0 < u) (hu' : u < u32) (hn : cs / u = n) (h8 : 8 ≤ n) (rs : List Req) (hr : ∀ r ∈ rs, MClock_even cs u r) :
    ∃ s, Reaches (MClock.algo (MClock.default score)) (MClock.init (MClock.default score) cs .none 0) (rs.map Op.get)
        (MultiHand.serveAll { cap := n, size := cs, pos := [0, (n + 3) / 4, (n + 1) / 2, (3 * n + 3) / 4, n - 1], consider := 1, score := score } 0 [] rs) s ∧
      s.q.q = (MultiHand.queueAfter { cap := n, size := cs, pos := [0, (n + 3) / 4, (n + 1) / 2, (3 * n + 3) / 4, n - 1], consider := 1, score := score } 0 [] rs).map (·.id) := by
  have hf := MClock_default_fits score cs u hu hu' ((Nat.le_div_iff_mul_le hu).1 (hn ▸ h8))
  have h := C96_follows_MClock_partial (MClock.default score) cs u hf rs hr
  rw [hn, MClock_default_places score n h8] at h
  exact h

/-- the theorem above on a trace: the evicted objects are 8, then 9, then 8 again -/
example : MultiHand.serveAll { cap := 8, size := 17, pos := [0, 2, 4, 6, 7], consider := 1, score := MClock_score } 0 []
      [⟨1, 2, 20⟩, ⟨2, 2, 30⟩, ⟨3, 2, 40⟩, ⟨4, 2, 50⟩, ⟨5, 2, 60⟩, ⟨6, 2, 70⟩, ⟨7, 2, 80⟩, ⟨8, 2, 90⟩, ⟨9, 2, 95⟩, ⟨8, 2, 96⟩, ⟨9, 2, 97⟩, ⟨3, 2, 98⟩] =
      [false, false, false, false, false, false, false, false, false, false, false, true] ∧
    (MultiHand.queueAfter { cap := 8, size := 17, pos := [0, 2, 4, 6, 7], consider := 1, score := MClock_score } 0 []
      [⟨1, 2, 20⟩, ⟨2, 2, 30⟩, ⟨3, 2, 40⟩, ⟨4, 2, 50⟩, ⟨5, 2, 60⟩, ⟨6, 2, 70⟩, ⟨7, 2, 80⟩, ⟨8, 2, 90⟩, ⟨9, 2, 95⟩, ⟨8, 2, 96⟩, ⟨9, 2, 97⟩, ⟨3, 2, 98⟩]).map (·.id) =
      [9, 7, 6, 5, 4, 3, 2, 1] := by decide +kernel

/-- C96: the position chosen is one of the hands', no other hand has a higher score, and of the hands with this score it is the last. -/
theorem C96_highestScore_MClock (f : Nat → Int) (ps : List Nat) (hne : ps ≠ []) :
    ∃ as p bs, ps = as ++ p :: bs ∧ MultiHand.pick f ps = some p ∧ (∀ q ∈ as, f q ≤ f p) ∧ ∀ q ∈ bs, f q < f p := by
  induction ps with
  | nil => exact absurd rfl hne
  | cons a ps ih =>
    cases ps with
    | nil => exact ⟨[], a, [], rfl, rfl, by simp, by simp⟩
    | cons b ps =>
      obtain ⟨as, p, bs, h1, h2, h3, h4⟩ := ih (by simp)
      have e : MultiHand.pick f (a :: b :: ps) = if f a > f p then some a else some p := by
        show (match MultiHand.pick f (b :: ps) with | none => some a | some b => _) = _
        rw [h2]
      by_cases hgt : f a > f p
      · refine ⟨[], a, b :: ps, rfl, by rw [e, if_pos hgt], by simp, ?_⟩
        rw [h1]
        intro q hq
        rcases List.mem_append.1 hq with hq | hq
        · have := h3 q hq; omega
        · rcases List.mem_cons.1 hq with rfl | hq
          · exact hgt
          · have := h4 q hq; omega
      · refine ⟨a :: as, p, bs, by rw [h1]; rfl, by rw [e, if_neg hgt], ?_, h4⟩
        intro q hq
        rcases List.mem_cons.1 hq with rfl | hq
        · omega
        · exact h3 q hq

/-! ## What fails -/

/-- C09: with room for fewer than four objects the first eviction fails an assertion: a hand stays without a place. -/
theorem C09_safe_fails_MClock_tiny : ∀ n ∈ [1, 2, 3], ∃ rs : List Req, (∀ r ∈ rs, r.size = 1) ∧
    faultOf (MClock.algo MClock_K) (MClock.init MClock_K n .none 0) (rs.map Op.get) = some .assertFail := by
  intro n hn
  refine ⟨(List.range (n + 1)).map (fun i => ⟨i, 1, 100⟩), by simp, ?_⟩
  simp only [List.mem_cons, List.not_mem_nil, or_false] at hn
  rcases hn with rfl | rfl | rfl <;> decide +kernel

/-- C09: with room for four to seven objects two of the default hands share the oldest object.  When it is evicted, one of them points to the freed object, and the next insertion follows it.  Here
every object is needed earlier than the ones before it, so that the first miss in the full cache does this. -/
theorem C09_safe_fails_MClock_small : ∀ n ∈ [4, 5, 6, 7], ∃ rs : List Req, rs.length = n + 1 ∧ (∀ r ∈ rs, r.size = 1) ∧
    faultOf (MClock.algo MClock_K) (MClock.init MClock_K n .none 0) (rs.map Op.get) = some .useAfterFree := by
  intro n hn
  refine ⟨(List.range (n + 1)).map (fun i => ⟨i, 1, 100 - i⟩), by simp, by simp, ?_⟩
  simp only [List.mem_cons, List.not_mem_nil, or_false] at hn
  rcases hn with rfl | rfl | rfl | rfl <;> decide +kernel

/-- C09: the number of times the hands have been set is counted per thread, not per cache.  Once a cache has evicted, the first eviction of any other cache of the same thread fails an assertion, whatever its parameters,
its size and its contents are. -/
theorem C09_safe_fails_MClock_secondCache (K : MClock.Conf) (s : MClock.State) (r : Req) (hh : s.hands.head? = some .null) (hr : 1 ≤ s.resets) : (MClock.algo K).evict s r = .error .assertFail := by
  show MClock.evict K s r = _
  unfold MClock.evict
  rw [if_pos hh, if_neg (by omega)]
  rfl

/-- the second cache of a thread, with room for ten objects, at its eleventh object -/
example : (MClock.init MClock_K 10 .none 1).hands.head? = some .null ∧
    faultOf (MClock.algo MClock_K) (MClock.init MClock_K 10 .none 1) ((List.range 11).map (fun i => Op.get ⟨i, 1, 100⟩)) = some .assertFail := by decide +kernel

/-- C09: with objects of different sizes a miss may need two evictions in a row, and the second one follows a hand that has run off the queue's end. -/
theorem C09_safe_fails_MClock_sizes : faultOf (MClock.algo MClock_K) (MClock.init MClock_K 10 .none 0)
    ((List.range 10).map (fun i => Op.get ⟨i, 1, 200 - i⟩) ++ [.get ⟨20, 2, 300⟩]) = some .nullDeref := by decide +kernel

/-- C07: removing a cached object fails an assertion. -/
theorem C07_removeExact_fails_MClock (K : MClock.Conf) (s : MClock.State) (id : ObjId) (hin : id ∈ (MClock_cached s).ids) : (MClock.algo K).remove s id = .error .assertFail := by
  show MClock.remove s id = _
  unfold MClock.remove
  cases h : s.q.base.lookup id with
  | none => exact absurd hin (lookup_none_iff'.1 h)
  | some o => rfl

/-- What remains of C07: removing an object that is not cached does nothing. -/
theorem C07_removeMiss_MClock_partial (K : MClock.Conf) (s : MClock.State) (id : ObjId) (hin : id ∉ (MClock_cached s).ids) : (MClock.algo K).remove s id = .ok (false, s) := by
  show MClock.remove s id = _
  unfold MClock.remove
  rw [lookup_none_iff'.2 hin]

example : 14 ∈ (MClock_cached MClock_demo).ids ∧ 8 ∉ (MClock_cached MClock_demo).ids := by decide +kernel

end Verif.Props
