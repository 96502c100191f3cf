import Verif.Proof.DemandPaging
import Verif.Props.Belady
import Verif.Props.LRU
import Verif.Props.FIFO
import Verif.Props.Clock
import Verif.Props.Sieve
import Verif.Props.LFU
import Verif.Props.LRUProb
import Verif.Props.S3FIFO
import Verif.Props.TwoQ
/-!
# C99: no cache that keeps what it is asked for beats Belady

Objects of one size, true next request times, no admission policy: on every such trace the modelled Belady has at least as many hits as the modelled LRU, FIFO, CLOCK, SIEVE,
LFU, LRU_Prob, S3-FIFO and 2Q, with whatever parameters.
-/

namespace Verif.Props
open Verif Verif.Spec
set_option linter.unusedVariables false

/-- The traces of C18: objects of one size `sz` that fit into the cache, each request carrying the true time of the next request for the object. -/
structure OneSizeTrace (cs md sz : Nat) (vt : Nat → Int) (trace : List Req) : Prop where
  pos : 0 < sz + md
  fits : sz + md ≤ cs
  small : sz + md < u32
  sizes : ∀ r ∈ trace, r.size = sz
  next : Annotated vt 0 trace
  inc : ∀ i j, i < j → vt i < vt j
  start : 0 ≤ vt 0
  exact : ∀ i, i < trace.length → vt i ≤ 9007199254740992

/-- On this trace the cache answers every request, and hits at most as often as Belady with a cache of the same size. -/
def AtMostBelady {σ : Type} (A : Algo σ) (s0 : σ) (cs md : Nat) (trace : List Req) : Prop :=
  ∃ out s best s', A.gets s0 trace = .ok (out, s) ∧ Belady.algo.gets (Belady.init cs md .none) trace = .ok (best, s') ∧ out.count true ≤ best.count true

theorem OneSizeTrace.sizeOk {cs md sz vt trace} (h : OneSizeTrace cs md sz vt trace) : ∀ r ∈ trace, SizeOk md r := by
  intro r hr
  unfold SizeOk
  rw [h.sizes r hr, Nat.mod_eq_of_lt (by have := h.small; omega)]
  exact h.small

/-- What the comparison needs to know about a cache: C01 to C05, and that it admits the requests of the trace. -/
theorem atMostBelady {σ : Type} {A : Algo σ} {cached : σ → Contents} {s0 : σ} {okOp : Op → Prop} {cs md sz : Nat} {vt : Nat → Int} {trace : List Req} {admits : σ → Req → Bool}
    (h : OneSizeTrace cs md sz vt trace) (hok : ∀ r ∈ trace, okOp (.get r))
    (hcap : Capacity A s0 okOp cs) (hacc : Accounting A cached s0 okOp md) (hhit : HitIffCached A cached s0 okOp)
    (hph : NoPhantom A cached s0 okOp) (hadd : AddsOnlyRequested A cached s0 okOp) (hadm : AdmittedMissCached A cached admits s0 okOp)
    (hall : AdmitsAll A admits s0 okOp trace) : AtMostBelady A s0 cs md trace := by
  obtain ⟨out, s, h1, h2⟩ := demandPlay hcap hacc hhit hph hadd hadm h.pos (by have := h.small; omega) trace hok h.sizes hall
  obtain ⟨best, s', h3, _, h4⟩ := C18_optimal_Belady cs md sz vt trace h.pos h.fits h.small h.sizes h.next h.inc h.start h.exact
  exact ⟨out, s, best, s', h1, h3, h4 _ h2⟩

theorem admitsBase_true {μ : Type} {b : Base μ} {cs md : Nat} {r : Req} (h1 : b.adm = .none) (h2 : b.cacheSize = cs) (h3 : b.objMd = md) (h : r.size + md ≤ cs) :
    admitsBase b r = true := by
  simp [admitsBase, h1, h2, h3, Adm.admit, h]

section
variable {cs md sz : Nat} {vt : Nat → Int} {trace : List Req} (h : OneSizeTrace cs md sz vt trace)
include h

theorem OneSizeTrace.fit : ∀ r ∈ trace, r.size + md ≤ cs := fun r hr => by rw [h.sizes r hr]; exact h.fits

theorem C99_atMostBelady_LRU : AtMostBelady LRU.algo (LRU.init cs md .none) cs md trace :=
  atMostBelady h h.sizeOk (C01_capacity_LRU cs md .none) (C02_accounting_LRU cs md .none) (C03_hitIffCached_LRU cs md .none) (C04_noPhantom_LRU cs md .none)
    (C04_addsOnlyRequested_LRU cs md .none) (C05_admittedMissCached_LRU cs md .none)
    (follows_admits (C11_lru_LRU cs md .none) rfl _ trace fun pre out s ho hr ha r hm =>
      have hi := (LRU.strong cs md).reach (QInv.init cs md .none) ho hr
      admitsBase_true ha ((LRU.strong cs md).csz hi) ((LRU.strong cs md).mdz hi) (h.fit r hm))

theorem C99_atMostBelady_FIFO : AtMostBelady FIFO.algo (FIFO.init cs md .none) cs md trace :=
  atMostBelady h h.sizeOk (C01_capacity_FIFO cs md .none) (C02_accounting_FIFO cs md .none) (C03_hitIffCached_FIFO cs md .none) (C04_noPhantom_FIFO cs md .none)
    (C04_addsOnlyRequested_FIFO cs md .none) (C05_admittedMissCached_FIFO cs md .none)
    (follows_admits (C13_fifo_FIFO cs md .none) rfl _ trace fun pre out s ho hr ha r hm =>
      have hi := (FIFO.strong cs md).reach (QInv.init cs md .none) ho hr
      admitsBase_true ha ((FIFO.strong cs md).csz hi) ((FIFO.strong cs md).mdz hi) (h.fit r hm))

theorem C99_atMostBelady_Clock (maxFreq : Nat) : AtMostBelady Clock.algo (Clock.init cs md maxFreq .none) cs md trace :=
  atMostBelady h h.sizeOk (C01_capacity_Clock cs md maxFreq .none) (C02_accounting_Clock cs md maxFreq .none) (C03_hitIffCached_Clock cs md maxFreq .none) (C04_noPhantom_Clock cs md maxFreq .none)
    (C04_addsOnlyRequested_Clock cs md maxFreq .none) (C05_admittedMissCached_Clock cs md maxFreq .none)
    (follows_admits (C14_clock_Clock cs md maxFreq .none) rfl _ trace fun pre out s ho hr ha r hm =>
      have hi := (Clock.strong cs md maxFreq).reach (Clock.inv_init cs md maxFreq .none) ho hr
      admitsBase_true ha ((Clock.strong cs md maxFreq).csz hi) ((Clock.strong cs md maxFreq).mdz hi) (h.fit r hm))

theorem C99_atMostBelady_Sieve : AtMostBelady Sieve.algo (Sieve.init cs md .none) cs md trace :=
  atMostBelady h h.sizeOk (C01_capacity_Sieve cs md .none) (C02_accounting_Sieve cs md .none) (C03_hitIffCached_Sieve cs md .none) (C04_noPhantom_Sieve cs md .none)
    (C04_addsOnlyRequested_Sieve cs md .none) (C05_admittedMissCached_Sieve cs md .none)
    (follows_admits (C15_sieve_Sieve cs md .none) rfl _ trace fun pre out s ho hr ha r hm =>
      have hi := (Sieve.strong cs md).reach (Sieve.inv_init cs md .none) ho hr
      admitsBase_true ha ((Sieve.strong cs md).csz hi) ((Sieve.strong cs md).mdz hi) (h.fit r hm))

theorem C99_atMostBelady_LFU : AtMostBelady LFU.algo (LFU.init cs md .none) cs md trace :=
  atMostBelady h h.sizeOk (C01_capacity_LFU cs md .none) (C02_accounting_LFU cs md .none) (C03_hitIffCached_LFU cs md .none) (C04_noPhantom_LFU cs md .none)
    (C04_addsOnlyRequested_LFU cs md .none) (C05_admittedMissCached_LFU cs md .none)
    (follows_admits (C16_lfu_LFU cs md .none) rfl _ trace fun pre out s ho hr ha r hm =>
      have hi := (LFU.strong cs md).reach (LFU.inv_init cs md .none) ho hr
      admitsBase_true ha ((LFU.strong cs md).csz hi) ((LFU.strong cs md).mdz hi) (h.fit r hm))

theorem C99_atMostBelady_LRUProb (n : Nat) (hn : 0 < n) (picks : List Nat) : AtMostBelady LRUProb.algo (LRUProb.init cs md .none false n picks) cs md trace :=
  atMostBelady h h.sizeOk (C01_capacity_LRUProb_partial cs md n hn .none picks) (C02_accounting_LRUProb_partial cs md n hn .none picks) (C03_hitIffCached_LRUProb_partial cs md n hn .none picks)
    (C04_noPhantom_LRUProb_partial cs md n hn .none picks) (C04_addsOnlyRequested_LRUProb_partial cs md n hn .none picks) (C05_admittedMissCached_LRUProb_partial cs md n hn .none picks)
    (follows_admits (C55_lruProb_LRUProb_partial cs md n hn .none picks) rfl _ trace fun pre out s ho hr ha r hm =>
      have hi := (LRUProb.strong cs md n hn).reach (LRUProb.inv_init cs md n .none picks) ho hr
      admitsBase_true ha ((LRUProb.strong cs md n hn).csz hi) ((LRUProb.strong cs md n hn).mdz hi) (h.fit r hm))

end

/-- S3-FIFO, for objects smaller than the small queue. -/
theorem C99_atMostBelady_S3FIFO {cs fs gs thr sz : Nat} {vt : Nat → Int} {trace : List Req} (h : OneSizeTrace cs 0 sz vt trace) (hf : fs ≤ cs) (hsz : sz < fs) :
    AtMostBelady S3FIFO.algo (S3FIFO.init cs fs gs thr) cs 0 trace := by
  have hw : ∀ op, (∃ r, op = Op.get r) → Calls {} (fun _ => True) op := by rintro _ ⟨r, rfl⟩; trivial
  have hw' : ∀ op, (∃ r, op = Op.get r) → Calls { ins := false } (fun _ => True) op := by rintro _ ⟨r, rfl⟩; trivial
  exact atMostBelady (okOp := fun op => ∃ r, op = Op.get r) h (fun r _ => ⟨r, rfl⟩) ((C01_capacity_S3FIFO cs fs gs thr hf).mono hw) ((C02_accounting_S3FIFO cs fs gs thr hf).mono hw)
    ((C03_hitIffCached_S3FIFO cs fs gs thr hf).mono hw) ((C04_noPhantom_S3FIFO_partial cs fs gs thr hf).mono hw') ((C04_addsOnlyRequested_S3FIFO cs fs gs thr hf).mono hw)
    ((C05_admittedMissCached_S3FIFO_partial cs fs gs thr hf).mono hw)
    (fun pre out s _ _ r hr => by simp [S3FIFO_takes, h.sizes r hr, hsz])

/-- 2Q, for objects that fit into Ain, which has at most half of the cache. -/
theorem C99_atMostBelady_TwoQ {cs as gs sz : Nat} {vt : Nat → Int} {trace : List Req} (h : OneSizeTrace cs 0 sz vt trace) (ha : 2 * as ≤ cs) (hsz : sz ≤ as) :
    AtMostBelady TwoQ.algo (TwoQ.init cs as gs 0) cs 0 trace := by
  have hw : ∀ op, (∃ r, op = Op.get r) → Calls noEvict (fun _ => True) op := by rintro _ ⟨r, rfl⟩; trivial
  have hw' : ∀ op, (∃ r, op = Op.get r) → Calls { ev := false, ins := false } (fun _ => True) op := by rintro _ ⟨r, rfl⟩; trivial
  exact atMostBelady (okOp := fun op => ∃ r, op = Op.get r) h (fun r _ => ⟨r, rfl⟩) ((C01_capacity_TwoQ_partial cs as gs ha).mono hw) ((C02_accounting_TwoQ_partial cs as gs ha).mono hw)
    ((C03_hitIffCached_TwoQ_partial cs as gs ha).mono hw) ((C04_noPhantom_TwoQ_partial cs as gs ha).mono hw') ((C04_addsOnlyRequested_TwoQ_partial cs as gs ha).mono hw)
    ((C05_admittedMissCached_TwoQ_partial cs as gs ha).mono hw)
    (fun pre out s _ _ r hr => by simp [h.sizes r hr, hsz])

/-- the trace of the example after C18 is such a trace -/
theorem beladyTrace_oneSize : OneSizeTrace 10 0 5 (fun i => i) beladyTrace where
  pos := by decide
  fits := by decide
  small := by decide
  sizes := by decide
  next := by simp only [Annotated, beladyTrace]; decide
  inc := fun i j hij => by exact_mod_cast hij
  start := by decide
  exact := by
    intro i hi
    have : i < 7 := hi
    omega

example : AtMostBelady LRU.algo (LRU.init 10 0 .none) 10 0 beladyTrace ∧ AtMostBelady (Clock.algo) (Clock.init 10 0 3 .none) 10 0 beladyTrace :=
  ⟨C99_atMostBelady_LRU beladyTrace_oneSize, C99_atMostBelady_Clock beladyTrace_oneSize 3⟩

/-- an object requested again and again, with other objects in between -/
def beladyScan : List Req := [⟨1, 1, 1⟩, ⟨1, 1, 3⟩, ⟨2, 1, int64Max⟩, ⟨1, 1, 5⟩, ⟨3, 1, int64Max⟩, ⟨1, 1, 7⟩, ⟨4, 1, int64Max⟩, ⟨1, 1, int64Max⟩]

theorem beladyScan_oneSize : OneSizeTrace 1 0 1 (fun i => i) beladyScan where
  pos := by decide
  fits := by decide
  small := by decide
  sizes := by decide
  next := by simp only [Annotated, beladyScan]; decide
  inc := fun i j hij => by exact_mod_cast hij
  start := by decide
  exact := by
    intro i hi
    have : i < 8 := hi
    omega

/-- C99 fails for a cache with an admission policy: LRU behind the bloom filter, which does not keep what is requested once, has three hits where Belady, which must cache every
missed object, has one. -/
theorem C99_admission_fails_LRU : OneSizeTrace 1 0 1 (fun i => i) beladyScan ∧ ¬ AtMostBelady LRU.algo (LRU.init 1 0 (.bloom [])) 1 0 beladyScan := by
  refine ⟨beladyScan_oneSize, ?_⟩
  rintro ⟨out, s, best, s', h1, h2, h3⟩
  have e1 : (LRU.algo.gets (LRU.init 1 0 (.bloom [])) beladyScan).map Prod.fst = .ok [false, false, false, true, false, true, false, true] := by decide +kernel
  have e2 : (Belady.algo.gets (Belady.init 1 0 .none) beladyScan).map Prod.fst = .ok [false, true, false, false, false, false, false, false] := by decide +kernel
  rw [h1] at e1
  rw [h2] at e2
  simp only [Except.map, Except.ok.injEq] at e1 e2
  subst e1 e2
  exact absurd h3 (by decide)

end Verif.Props
