import Verif.Proof.Earned
import Verif.Props.ARC
import Verif.Props.ARCv0
import Verif.Props.Belady
import Verif.Props.BeladyQueue
import Verif.Props.BeladySize
import Verif.Props.Cacheus
import Verif.Props.Clock
import Verif.Props.FIFO
import Verif.Props.FIFOMerge
import Verif.Props.FIFOReinsertion
import Verif.Props.FlashProb
import Verif.Props.GDSF
import Verif.Props.Hyperbolic
import Verif.Props.LFU
import Verif.Props.LFUCpp
import Verif.Props.LFUDA
import Verif.Props.LHD
import Verif.Props.LIRS
import Verif.Props.LPARC
import Verif.Props.LPSFIFO
import Verif.Props.LPTwoQ
import Verif.Props.LRU
import Verif.Props.LRUProb
import Verif.Props.LeCaR
import Verif.Props.LeCaRv0
import Verif.Props.MClock
import Verif.Props.MRU
import Verif.Props.QDLP
import Verif.Props.QDLPv0
import Verif.Props.Random
import Verif.Props.RandomLRU
import Verif.Props.RandomTwo
import Verif.Props.S3FIFO
import Verif.Props.S3FIFOd
import Verif.Props.S3LRU
import Verif.Props.SFIFO
import Verif.Props.SFIFOv0
import Verif.Props.SLRU
import Verif.Props.SLRUv0
import Verif.Props.Sieve
import Verif.Props.SieveBelady
import Verif.Props.Size
import Verif.Props.TwoQ
import Verif.Props.WTinyLFU
/-!
# C105: hits are earned

A `get` only hits an object that an earlier call asked for and that has not been removed since: no cache reports a hit for an object it was never asked for. In a trace of `get`s the first request for each object misses, whatever the eviction policy. The histories are those of the theorems
for C03 and C04; where these are partial, so is the theorem here.
-/

namespace Verif.Props
open Verif Verif.Spec

theorem C105_earned_ARC_partial : ∀ (R : ARC.Arith) (cs md : ℕ) (adm : Adm), HitsAreEarned (ARC.algo R) (ARC.init cs md adm) (Calls getFind (Adaptive.Requests cs md)) := by
  intros
  exact earned (cached := ARC_cached) (by apply C03_hitIffCached_ARC_partial <;> assumption) (by apply C04_noPhantom_ARC_partial <;> assumption)

theorem C105_firstMiss_ARC_partial : ∀ (R : ARC.Arith) (cs md : ℕ) (adm : Adm), FirstMisses (ARC.algo R) (ARC.init cs md adm) (Adaptive.Requests cs md) := by
  intros
  exact HitsAreEarned.firstMisses (p := getFind) (by apply C105_earned_ARC_partial <;> assumption)

theorem C105_earned_ARCv0_partial : ∀ (R : ARC.Arith) (sz : ObjId → ℕ) (cs : ℕ) (adm : Adm) (p : Perms), p.upd = false → p.ev = false → HitsAreEarned (ARCv0.algo R) (ARCv0.init cs adm) (Calls p (Adaptive.Sized cs sz)) := by
  intros
  exact earned (cached := ARCv0_cached) (by apply C03_hitIffCached_ARCv0_partial <;> assumption) (by apply C04_noPhantom_ARCv0_partial <;> assumption)

theorem C105_firstMiss_ARCv0_partial : ∀ (R : ARC.Arith) (sz : ObjId → ℕ) (cs : ℕ) (adm : Adm) (p : Perms), p.upd = false → p.ev = false → FirstMisses (ARCv0.algo R) (ARCv0.init cs adm) (Adaptive.Sized cs sz) := by
  intros
  apply HitsAreEarned.firstMisses
  apply C105_earned_ARCv0_partial <;> assumption

theorem C105_earned_Belady : ∀ (cs md : ℕ) (adm : Adm), HitsAreEarned Belady.algo (Belady.init cs md adm) (Calls { } (Belady.Ok md)) := by
  intros
  exact earned (cached := Belady_cached) (by apply C03_hitIffCached_Belady <;> assumption) (by apply C04_noPhantom_Belady <;> assumption)

theorem C105_firstMiss_Belady : ∀ (cs md : ℕ) (adm : Adm), FirstMisses Belady.algo (Belady.init cs md adm) (Belady.Ok md) := by
  intros
  exact HitsAreEarned.firstMisses (p := { }) (by apply C105_earned_Belady <;> assumption)

theorem C105_earned_FIFO_LRU_Belady_partial : ∀ (T : BeladyQueue.Thresh) (promote : Bool) (cs md : ℕ) (adm : Adm), HitsAreEarned (BeladyQueue.algo T promote) (BeladyQueue.init cs md adm) (Calls { } (SizeOk md)) := by
  intros
  exact earnedIf (cached := BeladyQueue_cached) (by apply C03_hitIffCached_FIFO_LRU_Belady_partial <;> assumption) (by apply C04_noPhantom_FIFO_LRU_Belady_partial <;> assumption)

theorem C105_firstMiss_FIFO_LRU_Belady_partial : ∀ (T : BeladyQueue.Thresh) (promote : Bool) (cs md : ℕ) (adm : Adm), FirstMisses (BeladyQueue.algo T promote) (BeladyQueue.init cs md adm) (SizeOk md) := by
  intros
  exact HitsAreEarned.firstMisses (p := { }) (by apply C105_earned_FIFO_LRU_Belady_partial <;> assumption)

theorem C105_earned_BeladySize_partial : ∀ (n cs md : ℕ) (adm : Adm) (picks : List ℕ), HitsAreEarned (BeladySize.algo n) (BeladySize.init cs md adm picks) (Calls { } (SizeOk md)) := by
  intros
  exact earnedIf (cached := BeladySize_cached) (by apply C03_hitIffCached_BeladySize_partial <;> assumption) (by apply C04_noPhantom_BeladySize_partial <;> assumption)

theorem C105_firstMiss_BeladySize_partial : ∀ (n cs md : ℕ) (adm : Adm) (picks : List ℕ), FirstMisses (BeladySize.algo n) (BeladySize.init cs md adm picks) (SizeOk md) := by
  intros
  exact HitsAreEarned.firstMisses (p := { }) (by apply C105_earned_BeladySize_partial <;> assumption)

theorem C105_earned_Cacheus_partial : ∀ (A : Cacheus.Arith) (cs : ℕ), 0 < cs → ∀ (adm : Adm) (draws : List ℕ), HitsAreEarned (Cacheus_A A) (Cacheus_new A cs adm draws) (Calls noRemove NonEmpty) := by
  intros
  exact earned (cached := Cacheus_cached) (by apply C03_hitIffCached_Cacheus_partial <;> assumption) (by apply C04_noPhantom_Cacheus_partial <;> assumption)

theorem C105_firstMiss_Cacheus_partial : ∀ (A : Cacheus.Arith) (cs : ℕ), 0 < cs → ∀ (adm : Adm) (draws : List ℕ), FirstMisses (Cacheus_A A) (Cacheus_new A cs adm draws) NonEmpty := by
  intros
  exact HitsAreEarned.firstMisses (p := noRemove) (by apply C105_earned_Cacheus_partial <;> assumption)

theorem C105_earned_Clock : ∀ (cs md maxFreq : ℕ) (adm : Adm), HitsAreEarned Clock.algo (Clock.init cs md maxFreq adm) (Calls { } (SizeOk md)) := by
  intros
  exact earned (cached := Clock_cached) (by apply C03_hitIffCached_Clock <;> assumption) (by apply C04_noPhantom_Clock <;> assumption)

theorem C105_firstMiss_Clock : ∀ (cs md maxFreq : ℕ) (adm : Adm), FirstMisses Clock.algo (Clock.init cs md maxFreq adm) (SizeOk md) := by
  intros
  exact HitsAreEarned.firstMisses (p := { }) (by apply C105_earned_Clock <;> assumption)

theorem C105_earned_FIFO : ∀ (cs md : ℕ) (adm : Adm), HitsAreEarned FIFO.algo (FIFO.init cs md adm) (Calls { } (SizeOk md)) := by
  intros
  exact earned (cached := FIFO_cached) (by apply C03_hitIffCached_FIFO <;> assumption) (by apply C04_noPhantom_FIFO <;> assumption)

theorem C105_firstMiss_FIFO : ∀ (cs md : ℕ) (adm : Adm), FirstMisses FIFO.algo (FIFO.init cs md adm) (SizeOk md) := by
  intros
  exact HitsAreEarned.firstMisses (p := { }) (by apply C105_earned_FIFO <;> assumption)

theorem C105_earned_FIFOMerge_partial : ∀ (P : FIFOMerge.Params), P.policy ≠ FIFOMerge.Policy.none → P.nExam ≤ 2147483647 → ∀ (cs md : ℕ) (adm : Adm) (picks : List ℕ), HitsAreEarned (FIFOMerge.algo P) (FIFOMerge.init cs md adm picks) (Calls FIFOMerge_calls (SizeOk md)) := by
  intros
  exact earned (cached := FIFOMerge_cached) (by apply C03_hitIffCached_FIFOMerge_partial <;> assumption) (by apply C04_noPhantom_FIFOMerge_partial <;> assumption)

theorem C105_firstMiss_FIFOMerge_partial : ∀ (P : FIFOMerge.Params), P.policy ≠ FIFOMerge.Policy.none → P.nExam ≤ 2147483647 → ∀ (cs md : ℕ) (adm : Adm) (picks : List ℕ), FirstMisses (FIFOMerge.algo P) (FIFOMerge.init cs md adm picks) (SizeOk md) := by
  intros
  exact HitsAreEarned.firstMisses (p := FIFOMerge_calls) (by apply C105_earned_FIFOMerge_partial <;> assumption)

theorem C105_earned_FIFOReinsertion_partial : ∀ (P : FIFOMerge.Params), P.policy ≠ FIFOMerge.Policy.none → P.nKeep < P.nExam → ∀ (cs md : ℕ) (adm : Adm) (picks : List ℕ), HitsAreEarned (FIFOReinsertion.algo P) (FIFOReinsertion.init cs md adm picks) (Calls FIFOReinsertion_calls (SizeOk md)) := by
  intros
  exact earned (cached := FIFOReinsertion_cached) (by apply C03_hitIffCached_FIFOReinsertion_partial <;> assumption) (by apply C04_noPhantom_FIFOReinsertion_partial <;> assumption)

theorem C105_firstMiss_FIFOReinsertion_partial : ∀ (P : FIFOMerge.Params), P.policy ≠ FIFOMerge.Policy.none → P.nKeep < P.nExam → ∀ (cs md : ℕ) (adm : Adm) (picks : List ℕ), FirstMisses (FIFOReinsertion.algo P) (FIFOReinsertion.init cs md adm picks) (SizeOk md) := by
  intros
  exact HitsAreEarned.firstMisses (p := FIFOReinsertion_calls) (by apply C105_earned_FIFOReinsertion_partial <;> assumption)

theorem C105_earned_FlashProbFIFO_partial : ∀ (cs ram : ℕ) (adm : Adm) (lru : Bool) (n : ℕ) (picks : List ℕ), 0 < n → ∀ (p : Perms) (ok : Req → Prop), FlashProb.Fits p ok → HitsAreEarned FlashProb.onFIFO (FlashProb.initFIFO cs ram adm lru n picks false) (Calls p ok) := by
  intros
  exact earned (cached := FlashProbFIFO_cached) (by apply C03_hitIffCached_FlashProbFIFO_partial <;> assumption) (by apply C04_noPhantom_FlashProbFIFO_partial <;> assumption)

theorem C105_firstMiss_FlashProbFIFO_partial : ∀ (cs ram : ℕ) (adm : Adm) (lru : Bool) (n : ℕ) (picks : List ℕ), 0 < n → ∀ (p : Perms) (ok : Req → Prop), FlashProb.Fits p ok → FirstMisses FlashProb.onFIFO (FlashProb.initFIFO cs ram adm lru n picks false) ok := by
  intros
  apply HitsAreEarned.firstMisses
  apply C105_earned_FlashProbFIFO_partial <;> assumption

theorem C105_earned_FlashProbClock_partial : ∀ (cs ram : ℕ) (adm : Adm) (lru : Bool) (n : ℕ) (picks : List ℕ), 0 < n → ∀ (p : Perms) (ok : Req → Prop), FlashProb.Fits p ok → HitsAreEarned FlashProb.onClock (FlashProb.initClock cs ram adm lru n picks false) (Calls p ok) := by
  intros
  exact earned (cached := FlashProbClock_cached) (by apply C03_hitIffCached_FlashProbClock_partial <;> assumption) (by apply C04_noPhantom_FlashProbClock_partial <;> assumption)

theorem C105_firstMiss_FlashProbClock_partial : ∀ (cs ram : ℕ) (adm : Adm) (lru : Bool) (n : ℕ) (picks : List ℕ), 0 < n → ∀ (p : Perms) (ok : Req → Prop), FlashProb.Fits p ok → FirstMisses FlashProb.onClock (FlashProb.initClock cs ram adm lru n picks false) ok := by
  intros
  apply HitsAreEarned.firstMisses
  apply C105_earned_FlashProbClock_partial <;> assumption

theorem C105_earned_GDSF_partial : ∀ {P : Type} [inst : LinearOrder P] (start : P) (score : P → ℕ → ℕ → P) (cs md : ℕ) (adm : Adm), HitsAreEarned (GDSF.algo start score) (GDSF.init start score cs md adm) (Calls GDSF.perms (SizeOk md)) := by
  intros
  exact earned (cached := GDSF_cached) (by apply C03_hitIffCached_GDSF_partial <;> assumption) (by apply C04_noPhantom_GDSF_partial <;> assumption)

theorem C105_firstMiss_GDSF_partial : ∀ {P : Type} [inst : LinearOrder P] (start : P) (score : P → ℕ → ℕ → P) (cs md : ℕ) (adm : Adm), FirstMisses (GDSF.algo start score) (GDSF.init start score cs md adm) (SizeOk md) := by
  intros
  exact HitsAreEarned.firstMisses (p := GDSF.perms) (by apply C105_earned_GDSF_partial <;> assumption)

theorem C105_earned_Hyperbolic_partial : ∀ (R : Hyperbolic.Rounding) (n : ℕ), 0 < n → ∀ (cs md : ℕ) (adm : Adm) (picks : List ℕ), HitsAreEarned (Hyperbolic.algo R n) (Hyperbolic.init cs md adm picks) (Calls Hyperbolic.calls (SizeOk md)) := by
  intros
  exact earned (cached := Hyperbolic_cached) (by apply C03_hitIffCached_Hyperbolic_partial <;> assumption) (by apply C04_noPhantom_Hyperbolic_partial <;> assumption)

theorem C105_firstMiss_Hyperbolic_partial : ∀ (R : Hyperbolic.Rounding) (n : ℕ), 0 < n → ∀ (cs md : ℕ) (adm : Adm) (picks : List ℕ), FirstMisses (Hyperbolic.algo R n) (Hyperbolic.init cs md adm picks) (SizeOk md) := by
  intros
  exact HitsAreEarned.firstMisses (p := Hyperbolic.calls) (by apply C105_earned_Hyperbolic_partial <;> assumption)

theorem C105_earned_LFU : ∀ (cs md : ℕ) (adm : Adm), HitsAreEarned LFU.algo (LFU.init cs md adm) (Calls { } (SizeOk md)) := by
  intros
  exact earned (cached := LFU_cached) (by apply C03_hitIffCached_LFU <;> assumption) (by apply C04_noPhantom_LFU <;> assumption)

theorem C105_firstMiss_LFU : ∀ (cs md : ℕ) (adm : Adm), FirstMisses LFU.algo (LFU.init cs md adm) (SizeOk md) := by
  intros
  exact HitsAreEarned.firstMisses (p := { }) (by apply C105_earned_LFU <;> assumption)

theorem C105_earned_LFUCpp_partial : ∀ (cs md : ℕ) (adm : Adm), HitsAreEarned LFUCpp.algo (LFUCpp.init cs md adm) (Calls LFUCpp.perms (SizeOk md)) := by
  intros
  exact earned (cached := LFUCpp_cached) (by apply C03_hitIffCached_LFUCpp_partial <;> assumption) (by apply C04_noPhantom_LFUCpp_partial <;> assumption)

theorem C105_firstMiss_LFUCpp_partial : ∀ (cs md : ℕ) (adm : Adm), FirstMisses LFUCpp.algo (LFUCpp.init cs md adm) (SizeOk md) := by
  intros
  exact HitsAreEarned.firstMisses (p := LFUCpp.perms) (by apply C105_earned_LFUCpp_partial <;> assumption)

theorem C105_earned_LFUDA_partial : ∀ (cs md : ℕ) (adm : Adm), HitsAreEarned LFUDA.algo (LFUDA.init cs md adm) (Calls { } (SizeOk md)) := by
  intros
  exact earnedIf (cached := LFUDA_cached) (by apply C03_hitIffCached_LFUDA_partial <;> assumption) (by apply C04_noPhantom_LFUDA_partial <;> assumption)

theorem C105_firstMiss_LFUDA_partial : ∀ (cs md : ℕ) (adm : Adm), FirstMisses LFUDA.algo (LFUDA.init cs md adm) (SizeOk md) := by
  intros
  exact HitsAreEarned.firstMisses (p := { }) (by apply C105_earned_LFUDA_partial <;> assumption)

theorem C105_earned_LHD_partial : ∀ (R : LHD.Rounding) (cs md : ℕ) (adm : Adm) (picks : List ℕ), HitsAreEarned (LHD.algo R) (LHD.init R cs md adm picks) (Calls LHD.calls (LHD.Sized md)) := by
  intros
  exact earned (cached := LHD_cached) (by apply C03_hitIffCached_LHD_partial <;> assumption) (by apply C04_noPhantom_LHD_partial <;> assumption)

theorem C105_firstMiss_LHD_partial : ∀ (R : LHD.Rounding) (cs md : ℕ) (adm : Adm) (picks : List ℕ), FirstMisses (LHD.algo R) (LHD.init R cs md adm picks) (LHD.Sized md) := by
  intros
  exact HitsAreEarned.firstMisses (p := LHD.calls) (by apply C105_earned_LHD_partial <;> assumption)

theorem C105_earned_LIRS_partial : ∀ (sz : ObjId → ℕ) (cs hl : ℕ) (adm : Adm) (strict : Bool), 2 * hl ≤ cs → HitsAreEarned LIRS.algo (LIRS.init cs hl 0 adm strict) (Calls LIRS.looks (LIRS.Third (LIRS_limits cs hl) sz)) := by
  intros
  exact earned (cached := LIRS_cached) (by apply C03_hitIffCached_LIRS_partial <;> assumption) (by apply C04_noPhantom_LIRS_partial <;> assumption)

theorem C105_firstMiss_LIRS_partial : ∀ (sz : ObjId → ℕ) (cs hl : ℕ) (adm : Adm) (strict : Bool), 2 * hl ≤ cs → FirstMisses LIRS.algo (LIRS.init cs hl 0 adm strict) (LIRS.Third (LIRS_limits cs hl) sz) := by
  intros
  exact HitsAreEarned.firstMisses (p := LIRS.looks) (by apply C105_earned_LIRS_partial <;> assumption)

theorem C105_earned_LPARC_partial : ∀ (R : ARC.Arith) (sz : ObjId → ℕ) (cs : ℕ) (p : Perms), p.upd = false → p.ev = false → p.ins = false → HitsAreEarned (LPARC.algo R) (LPARC.init cs) (Calls p (LazyARC.Fits cs sz)) := by
  intros
  exact earned (cached := LPARC_cached) (by apply C03_hitIffCached_LPARC_partial <;> assumption) (by apply C04_noPhantom_LPARC_partial <;> assumption)

theorem C105_firstMiss_LPARC_partial : ∀ (R : ARC.Arith) (sz : ObjId → ℕ) (cs : ℕ) (p : Perms), p.upd = false → p.ev = false → p.ins = false → FirstMisses (LPARC.algo R) (LPARC.init cs) (LazyARC.Fits cs sz) := by
  intros
  apply HitsAreEarned.firstMisses
  apply C105_earned_LPARC_partial <;> assumption

theorem C105_earned_LPSFIFO_partial : ∀ (cs n : ℕ) (lim : ℕ → ℕ) (adm : Adm), 0 < n → (List.map lim (List.range n)).sum ≤ cs → HitsAreEarned LPSFIFO.algo (LPSFIFO.init cs adm n lim) LPSFIFO_few := by
  intros
  exact earned (cached := LPSFIFO_cached) (by apply C03_hitIffCached_LPSFIFO_partial <;> assumption) (by apply C04_noPhantom_LPSFIFO_partial <;> assumption)

theorem C105_earned_LPTwoQ_partial : ∀ (cs as gs : ℕ), 2 * as ≤ cs → HitsAreEarned LPTwoQ.algo (LPTwoQ.init cs as gs) (Calls { ev := false, ins := false } fun (x : Req) => True) := by
  intros
  exact earned (cached := LPTwoQ_cached) (HitIffCached.mono (by intro op h; cases op <;> first | exact h | simp_all [Calls, noEvict]) (C03_hitIffCached_LPTwoQ_partial _ _ _ ‹_›)) (by apply C04_noPhantom_LPTwoQ_partial <;> assumption)

theorem C105_firstMiss_LPTwoQ_partial : ∀ (cs as gs : ℕ), 2 * as ≤ cs → FirstMisses LPTwoQ.algo (LPTwoQ.init cs as gs) (fun (x : Req) => True) := by
  intros
  exact HitsAreEarned.firstMisses (p := { ev := false, ins := false }) (by apply C105_earned_LPTwoQ_partial <;> assumption)

theorem C105_earned_LRU : ∀ (cs md : ℕ) (adm : Adm), HitsAreEarned LRU.algo (LRU.init cs md adm) (Calls { } (SizeOk md)) := by
  intros
  exact earned (cached := LRU_cached) (by apply C03_hitIffCached_LRU <;> assumption) (by apply C04_noPhantom_LRU <;> assumption)

theorem C105_firstMiss_LRU : ∀ (cs md : ℕ) (adm : Adm), FirstMisses LRU.algo (LRU.init cs md adm) (SizeOk md) := by
  intros
  exact HitsAreEarned.firstMisses (p := { }) (by apply C105_earned_LRU <;> assumption)

theorem C105_earned_LRUProb_partial : ∀ (cs md n : ℕ), 0 < n → ∀ (adm : Adm) (picks : List ℕ), HitsAreEarned LRUProb.algo (LRUProb.init cs md adm false n picks) (Calls { } (SizeOk md)) := by
  intros
  exact earned (cached := LRUProb_cached) (by apply C03_hitIffCached_LRUProb_partial <;> assumption) (by apply C04_noPhantom_LRUProb_partial <;> assumption)

theorem C105_firstMiss_LRUProb_partial : ∀ (cs md n : ℕ), 0 < n → ∀ (adm : Adm) (picks : List ℕ), FirstMisses LRUProb.algo (LRUProb.init cs md adm false n picks) (SizeOk md) := by
  intros
  exact HitsAreEarned.firstMisses (p := { }) (by apply C105_earned_LRUProb_partial <;> assumption)

theorem C105_earned_LeCaR_partial : ∀ (R : LeCaR.Arith) (cs md : ℕ) (adm : Adm) (draws : List ℕ), HitsAreEarned (LeCaR_A R) (LeCaR.init R cs md adm draws) (Calls getFindEvict (Adaptive.Requests cs md)) := by
  intros
  exact earned (cached := LeCaR_cached) (by apply C03_hitIffCached_LeCaR_partial <;> assumption) (by apply C04_noPhantom_LeCaR_partial <;> assumption)

theorem C105_firstMiss_LeCaR_partial : ∀ (R : LeCaR.Arith) (cs md : ℕ) (adm : Adm) (draws : List ℕ), FirstMisses (LeCaR_A R) (LeCaR.init R cs md adm draws) (Adaptive.Requests cs md) := by
  intros
  exact HitsAreEarned.firstMisses (p := getFindEvict) (by apply C105_earned_LeCaR_partial <;> assumption)

theorem C105_earned_LeCaRv0_partial : ∀ (R : LeCaR.Arith) (cs : ℕ) (adm : Adm) (draws : List ℕ) (vt0 : ObjId → ℤ), HitsAreEarned (LeCaRv0_A R) (LeCaRv0_new R cs adm draws vt0) (Calls { } (AnyTwoFit cs 0)) := by
  intros
  exact earned (cached := LeCaRv0_cached) (by apply C03_hitIffCached_LeCaRv0_partial <;> assumption) (by apply C04_noPhantom_LeCaRv0_partial <;> assumption)

theorem C105_firstMiss_LeCaRv0_partial : ∀ (R : LeCaR.Arith) (cs : ℕ) (adm : Adm) (draws : List ℕ) (vt0 : ObjId → ℤ), FirstMisses (LeCaRv0_A R) (LeCaRv0_new R cs adm draws vt0) (AnyTwoFit cs 0) := by
  intros
  exact HitsAreEarned.firstMisses (p := { }) (by apply C105_earned_LeCaRv0_partial <;> assumption)

theorem C105_earned_MClock_partial : ∀ (K : MClock.Conf) (cs u : ℕ), MClock_fits K cs u → ∀ (adm : Adm), HitsAreEarned (MClock.algo K) (MClock.init K cs adm 0) (Calls MClock_calls (MClock_even cs u)) := by
  intros
  exact earned (cached := MClock_cached) (by apply C03_hitIffCached_MClock_partial <;> assumption) (by apply C04_noPhantom_MClock_partial <;> assumption)

theorem C105_firstMiss_MClock_partial : ∀ (K : MClock.Conf) (cs u : ℕ), MClock_fits K cs u → ∀ (adm : Adm), FirstMisses (MClock.algo K) (MClock.init K cs adm 0) (MClock_even cs u) := by
  intros
  exact HitsAreEarned.firstMisses (p := MClock_calls) (by apply C105_earned_MClock_partial <;> assumption)

theorem C105_earned_MRU_partial : ∀ (cs md : ℕ) (adm : Adm), HitsAreEarned MRU.algo (MRU.init cs md adm) (Calls { ev := false } (AnyTwoFit cs md)) := by
  intros
  exact earned (cached := MRU_cached) (by apply C03_hitIffCached_MRU_partial <;> assumption) (by apply C04_noPhantom_MRU_partial <;> assumption)

theorem C105_firstMiss_MRU_partial : ∀ (cs md : ℕ) (adm : Adm), FirstMisses MRU.algo (MRU.init cs md adm) (AnyTwoFit cs md) := by
  intros
  exact HitsAreEarned.firstMisses (p := { ev := false }) (by apply C105_earned_MRU_partial <;> assumption)

theorem C105_earned_QDLPClock_partial : ∀ (cs fs gs : ℕ) (thr : ℤ) (maxFreq : ℕ), fs ≤ cs → ∀ (p : Perms) (ok : Req → Prop), QDLP.Fits cs fs p ok → p.ins = false → HitsAreEarned QDLP.onClock (QDLP.initClock cs fs gs thr maxFreq) (Calls p ok) := by
  intros
  exact earned (cached := QDLPClock_cached) (by apply C03_hitIffCached_QDLPClock_partial <;> assumption) (by apply C04_noPhantom_QDLPClock_partial <;> assumption)

theorem C105_firstMiss_QDLPClock_partial : ∀ (cs fs gs : ℕ) (thr : ℤ) (maxFreq : ℕ), fs ≤ cs → ∀ (p : Perms) (ok : Req → Prop), QDLP.Fits cs fs p ok → p.ins = false → FirstMisses QDLP.onClock (QDLP.initClock cs fs gs thr maxFreq) ok := by
  intros
  apply HitsAreEarned.firstMisses
  apply C105_earned_QDLPClock_partial <;> assumption

theorem C105_earned_QDLPSieve_partial : ∀ (cs fs gs : ℕ) (thr : ℤ), fs ≤ cs → ∀ (p : Perms) (ok : Req → Prop), QDLP.Fits cs fs p ok → p.ins = false → HitsAreEarned QDLP.onSieve (QDLP.initSieve cs fs gs thr) (Calls p ok) := by
  intros
  exact earned (cached := QDLPSieve_cached) (by apply C03_hitIffCached_QDLPSieve_partial <;> assumption) (by apply C04_noPhantom_QDLPSieve_partial <;> assumption)

theorem C105_firstMiss_QDLPSieve_partial : ∀ (cs fs gs : ℕ) (thr : ℤ), fs ≤ cs → ∀ (p : Perms) (ok : Req → Prop), QDLP.Fits cs fs p ok → p.ins = false → FirstMisses QDLP.onSieve (QDLP.initSieve cs fs gs thr) ok := by
  intros
  apply HitsAreEarned.firstMisses
  apply C105_earned_QDLPSieve_partial <;> assumption

theorem C105_earned_QDLPLRU_partial : ∀ (cs fs gs : ℕ) (thr : ℤ), fs ≤ cs → ∀ (p : Perms) (ok : Req → Prop), QDLP.Fits cs fs p ok → p.ins = false → HitsAreEarned QDLP.onLRU (QDLP.initLRU cs fs gs thr) (Calls p ok) := by
  intros
  exact earned (cached := QDLPLRU_cached) (by apply C03_hitIffCached_QDLPLRU_partial <;> assumption) (by apply C04_noPhantom_QDLPLRU_partial <;> assumption)

theorem C105_firstMiss_QDLPLRU_partial : ∀ (cs fs gs : ℕ) (thr : ℤ), fs ≤ cs → ∀ (p : Perms) (ok : Req → Prop), QDLP.Fits cs fs p ok → p.ins = false → FirstMisses QDLP.onLRU (QDLP.initLRU cs fs gs thr) ok := by
  intros
  apply HitsAreEarned.firstMisses
  apply C105_earned_QDLPLRU_partial <;> assumption

theorem C105_earned_QDLPFIFO_partial : ∀ (cs fs gs : ℕ) (thr : ℤ), fs ≤ cs → ∀ (p : Perms) (ok : Req → Prop), QDLP.Fits cs fs p ok → p.ins = false → HitsAreEarned QDLP.onFIFO (QDLP.initFIFO cs fs gs thr) (Calls p ok) := by
  intros
  exact earned (cached := QDLPFIFO_cached) (by apply C03_hitIffCached_QDLPFIFO_partial <;> assumption) (by apply C04_noPhantom_QDLPFIFO_partial <;> assumption)

theorem C105_firstMiss_QDLPFIFO_partial : ∀ (cs fs gs : ℕ) (thr : ℤ), fs ≤ cs → ∀ (p : Perms) (ok : Req → Prop), QDLP.Fits cs fs p ok → p.ins = false → FirstMisses QDLP.onFIFO (QDLP.initFIFO cs fs gs thr) ok := by
  intros
  apply HitsAreEarned.firstMisses
  apply C105_earned_QDLPFIFO_partial <;> assumption

theorem C105_earned_QDLPv0_partial : ∀ (cs md fs : ℕ), fs ≤ cs → ∀ (adm : Adm), HitsAreEarned QDLPv0.algo (QDLPv0.init cs md (↑fs) adm) (Calls getFindEvict (SizeOk md)) := by
  intros
  exact earned (cached := QDLPv0_cached) (by apply C03_hitIffCached_QDLPv0_partial <;> assumption) (by apply C04_noPhantom_QDLPv0_partial <;> assumption)

theorem C105_firstMiss_QDLPv0_partial : ∀ (cs md fs : ℕ), fs ≤ cs → ∀ (adm : Adm), FirstMisses QDLPv0.algo (QDLPv0.init cs md (↑fs) adm) (SizeOk md) := by
  intros
  exact HitsAreEarned.firstMisses (p := getFindEvict) (by apply C105_earned_QDLPv0_partial <;> assumption)

theorem C105_earned_Random : ∀ (cs md : ℕ) (adm : Adm) (picks : List ℕ), HitsAreEarned Random.algo (Random.init cs md adm picks) (Calls { } (SizeOk md)) := by
  intros
  exact earned (cached := Random_cached) (by apply C03_hitIffCached_Random <;> assumption) (by apply C04_noPhantom_Random <;> assumption)

theorem C105_firstMiss_Random : ∀ (cs md : ℕ) (adm : Adm) (picks : List ℕ), FirstMisses Random.algo (Random.init cs md adm picks) (SizeOk md) := by
  intros
  exact HitsAreEarned.firstMisses (p := { }) (by apply C105_earned_Random <;> assumption)

theorem C105_earned_RandomLRU : ∀ (cs md : ℕ) (adm : Adm) (picks : List ℕ), HitsAreEarned RandomLRU.algo (RandomLRU.init cs md adm picks) (Calls { } (SizeOk md)) := by
  intros
  exact earned (cached := RandomLRU_cached) (by apply C03_hitIffCached_RandomLRU <;> assumption) (by apply C04_noPhantom_RandomLRU <;> assumption)

theorem C105_firstMiss_RandomLRU : ∀ (cs md : ℕ) (adm : Adm) (picks : List ℕ), FirstMisses RandomLRU.algo (RandomLRU.init cs md adm picks) (SizeOk md) := by
  intros
  exact HitsAreEarned.firstMisses (p := { }) (by apply C105_earned_RandomLRU <;> assumption)

theorem C105_earned_RandomTwo : ∀ (cs md : ℕ) (adm : Adm) (picks : List ℕ), HitsAreEarned RandomTwo.algo (RandomTwo.init cs md adm picks) (Calls { } (SizeOk md)) := by
  intros
  exact earned (cached := RandomTwo_cached) (by apply C03_hitIffCached_RandomTwo <;> assumption) (by apply C04_noPhantom_RandomTwo <;> assumption)

theorem C105_firstMiss_RandomTwo : ∀ (cs md : ℕ) (adm : Adm) (picks : List ℕ), FirstMisses RandomTwo.algo (RandomTwo.init cs md adm picks) (SizeOk md) := by
  intros
  exact HitsAreEarned.firstMisses (p := { }) (by apply C105_earned_RandomTwo <;> assumption)

theorem C105_earned_S3FIFO_partial : ∀ (cs fs gs thr : ℕ), fs ≤ cs → HitsAreEarned S3FIFO.algo (S3FIFO.init cs fs gs thr) (Calls { ins := false } fun (x : Req) => True) := by
  intros
  exact earned (cached := S3FIFO_cached) (HitIffCached.mono (by intro op h; cases op <;> first | exact h | simp_all [Calls, noEvict]) (C03_hitIffCached_S3FIFO _ _ _ _ ‹_›)) (by apply C04_noPhantom_S3FIFO_partial <;> assumption)

theorem C105_firstMiss_S3FIFO_partial : ∀ (cs fs gs thr : ℕ), fs ≤ cs → FirstMisses S3FIFO.algo (S3FIFO.init cs fs gs thr) (fun (x : Req) => True) := by
  intros
  exact HitsAreEarned.firstMisses (p := { ins := false }) (by apply C105_earned_S3FIFO_partial <;> assumption)

theorem C105_earned_S3FIFOd_FIFO_partial : ∀ (cs fs : ℕ) (thr : ℤ) (stale : List (Option ℤ)) (p : Perms), fs ≤ cs → p.ins = false → HitsAreEarned (S3FIFOd.algo S3FIFOd.onFIFO) (S3FIFOd_newFIFO cs fs thr stale) (Calls p (Adapt.FitsMain cs fs p)) := by
  intros
  exact earned (cached := (S3FIFOd_cached S3FIFOd_mainFIFO)) (by apply C03_hitIffCached_S3FIFOd_FIFO_partial <;> assumption) (by apply C04_noPhantom_S3FIFOd_FIFO_partial <;> assumption)

theorem C105_firstMiss_S3FIFOd_FIFO_partial : ∀ (cs fs : ℕ) (thr : ℤ) (stale : List (Option ℤ)) (p : Perms), fs ≤ cs → p.ins = false → FirstMisses (S3FIFOd.algo S3FIFOd.onFIFO) (S3FIFOd_newFIFO cs fs thr stale) (Adapt.FitsMain cs fs p) := by
  intros
  apply HitsAreEarned.firstMisses
  apply C105_earned_S3FIFOd_FIFO_partial <;> assumption

theorem C105_earned_S3FIFOd_LRU_partial : ∀ (cs fs : ℕ) (thr : ℤ) (stale : List (Option ℤ)) (p : Perms), fs ≤ cs → p.ins = false → HitsAreEarned (S3FIFOd.algo S3FIFOd.onLRU) (S3FIFOd_newLRU cs fs thr stale) (Calls p (Adapt.FitsMain cs fs p)) := by
  intros
  exact earned (cached := (S3FIFOd_cached S3FIFOd_mainLRU)) (by apply C03_hitIffCached_S3FIFOd_LRU_partial <;> assumption) (by apply C04_noPhantom_S3FIFOd_LRU_partial <;> assumption)

theorem C105_firstMiss_S3FIFOd_LRU_partial : ∀ (cs fs : ℕ) (thr : ℤ) (stale : List (Option ℤ)) (p : Perms), fs ≤ cs → p.ins = false → FirstMisses (S3FIFOd.algo S3FIFOd.onLRU) (S3FIFOd_newLRU cs fs thr stale) (Adapt.FitsMain cs fs p) := by
  intros
  apply HitsAreEarned.firstMisses
  apply C105_earned_S3FIFOd_LRU_partial <;> assumption

theorem C105_earned_S3FIFOd_Clock_partial : ∀ (mf cs fs : ℕ) (thr : ℤ) (stale : List (Option ℤ)) (p : Perms), fs ≤ cs → p.ins = false → HitsAreEarned (S3FIFOd.algo S3FIFOd.onClock) (S3FIFOd_newClock mf cs fs thr stale) (Calls p (Adapt.FitsMain cs fs p)) := by
  intros
  exact earned (cached := (S3FIFOd_cached S3FIFOd_mainClock)) (by apply C03_hitIffCached_S3FIFOd_Clock_partial <;> assumption) (by apply C04_noPhantom_S3FIFOd_Clock_partial <;> assumption)

theorem C105_firstMiss_S3FIFOd_Clock_partial : ∀ (mf cs fs : ℕ) (thr : ℤ) (stale : List (Option ℤ)) (p : Perms), fs ≤ cs → p.ins = false → FirstMisses (S3FIFOd.algo S3FIFOd.onClock) (S3FIFOd_newClock mf cs fs thr stale) (Adapt.FitsMain cs fs p) := by
  intros
  apply HitsAreEarned.firstMisses
  apply C105_earned_S3FIFOd_Clock_partial <;> assumption

theorem C105_earned_S3FIFOd_Sieve_partial : ∀ (cs fs : ℕ) (thr : ℤ) (stale : List (Option ℤ)) (p : Perms), fs ≤ cs → p.ins = false → HitsAreEarned (S3FIFOd.algo S3FIFOd.onSieve) (S3FIFOd_newSieve cs fs thr stale) (Calls p (Adapt.FitsMain cs fs p)) := by
  intros
  exact earned (cached := (S3FIFOd_cached S3FIFOd_mainSieve)) (by apply C03_hitIffCached_S3FIFOd_Sieve_partial <;> assumption) (by apply C04_noPhantom_S3FIFOd_Sieve_partial <;> assumption)

theorem C105_firstMiss_S3FIFOd_Sieve_partial : ∀ (cs fs : ℕ) (thr : ℤ) (stale : List (Option ℤ)) (p : Perms), fs ≤ cs → p.ins = false → FirstMisses (S3FIFOd.algo S3FIFOd.onSieve) (S3FIFOd_newSieve cs fs thr stale) (Adapt.FitsMain cs fs p) := by
  intros
  apply HitsAreEarned.firstMisses
  apply C105_earned_S3FIFOd_Sieve_partial <;> assumption

theorem C105_earned_S3LRU_partial : ∀ (sz : ObjId → ℕ) (cs fs gs : ℕ) (pr : Bool) (thr : ℤ) (p : Perms), fs ≤ cs → p.upd = false → p.ins = false → HitsAreEarned S3LRU.algo (S3LRU_new cs fs gs pr thr) (Calls p (OneSize sz p)) := by
  intros
  exact earned (cached := S3LRU_cached) (by apply C03_hitIffCached_S3LRU_partial <;> assumption) (by apply C04_noPhantom_S3LRU_partial <;> assumption)

theorem C105_firstMiss_S3LRU_partial : ∀ (sz : ObjId → ℕ) (cs fs gs : ℕ) (pr : Bool) (thr : ℤ) (p : Perms), fs ≤ cs → p.upd = false → p.ins = false → FirstMisses S3LRU.algo (S3LRU_new cs fs gs pr thr) (OneSize sz p) := by
  intros
  apply HitsAreEarned.firstMisses
  apply C105_earned_S3LRU_partial <;> assumption

theorem C105_earned_SFIFO_partial : ∀ (cs n : ℕ) (adm : Adm) (p : Perms), 1 ≤ n → p.rem = false → HitsAreEarned SFIFO.algo (SFIFO.init cs 0 adm n) (Calls p (Segmented.Small (cs / n) p)) := by
  intros
  exact earned (cached := SFIFO_cached) (by apply C03_hitIffCached_SFIFO_partial <;> assumption) (by apply C04_noPhantom_SFIFO_partial <;> assumption)

theorem C105_firstMiss_SFIFO_partial : ∀ (cs n : ℕ) (adm : Adm) (p : Perms), 1 ≤ n → p.rem = false → FirstMisses SFIFO.algo (SFIFO.init cs 0 adm n) (Segmented.Small (cs / n) p) := by
  intros
  apply HitsAreEarned.firstMisses
  apply C105_earned_SFIFO_partial <;> assumption

theorem C105_earned_SFIFOv0_partial : ∀ (sz : ObjId → ℕ) (cs n : ℕ) (adm : Adm) (p : Perms), 1 ≤ n → (n ≤ 2 ∨ ∃ (c : ℕ), ∀ (id : ObjId), sz id = c) → p.upd = false → p.peek = false → p.ins = false → HitsAreEarned SFIFOv0.algo (SFIFOv0.init cs adm n) (Calls p (Segmented.Steady sz (cs / n) 0 p)) := by
  intros
  exact earned (cached := SFIFOv0_cached) (by apply C03_hitIffCached_SFIFOv0_partial <;> assumption) (by apply C04_noPhantom_SFIFOv0_partial <;> assumption)

theorem C105_firstMiss_SFIFOv0_partial : ∀ (sz : ObjId → ℕ) (cs n : ℕ) (adm : Adm) (p : Perms), 1 ≤ n → (n ≤ 2 ∨ ∃ (c : ℕ), ∀ (id : ObjId), sz id = c) → p.upd = false → p.peek = false → p.ins = false → FirstMisses SFIFOv0.algo (SFIFOv0.init cs adm n) (Segmented.Steady sz (cs / n) 0 p) := by
  intros
  apply HitsAreEarned.firstMisses
  apply C105_earned_SFIFOv0_partial <;> assumption

theorem C105_earned_SLRU_partial : ∀ (cs n : ℕ) (lim : ℕ → ℕ) (adm : Adm) (p : Perms), 1 ≤ n → p.rem = false → HitsAreEarned SLRU.algo (SLRU.init cs 0 adm n lim) (Calls p (Segmented.Requests lim p)) := by
  intros
  exact earned (cached := SLRU_cached) (by apply C03_hitIffCached_SLRU_partial <;> assumption) (by apply C04_noPhantom_SLRU_partial <;> assumption)

theorem C105_firstMiss_SLRU_partial : ∀ (cs n : ℕ) (lim : ℕ → ℕ) (adm : Adm) (p : Perms), 1 ≤ n → p.rem = false → FirstMisses SLRU.algo (SLRU.init cs 0 adm n lim) (Segmented.Requests lim p) := by
  intros
  apply HitsAreEarned.firstMisses
  apply C105_earned_SLRU_partial <;> assumption

theorem C105_earned_SLRUv0_partial : ∀ (sz : ObjId → ℕ) (cs md n : ℕ) (adm : Adm) (p : Perms), 1 ≤ n → p.upd = false → HitsAreEarned SLRUv0.algo (SLRUv0.init cs md adm n) (Calls p (Segmented.Steady sz (cs / n) md p)) := by
  intros
  exact earned (cached := SLRUv0_cached) (by apply C03_hitIffCached_SLRUv0_partial <;> assumption) (by apply C04_noPhantom_SLRUv0_partial <;> assumption)

theorem C105_firstMiss_SLRUv0_partial : ∀ (sz : ObjId → ℕ) (cs md n : ℕ) (adm : Adm) (p : Perms), 1 ≤ n → p.upd = false → FirstMisses SLRUv0.algo (SLRUv0.init cs md adm n) (Segmented.Steady sz (cs / n) md p) := by
  intros
  apply HitsAreEarned.firstMisses
  apply C105_earned_SLRUv0_partial <;> assumption

theorem C105_earned_Sieve : ∀ (cs md : ℕ) (adm : Adm), HitsAreEarned Sieve.algo (Sieve.init cs md adm) (Calls { } (SizeOk md)) := by
  intros
  exact earned (cached := Sieve_cached) (by apply C03_hitIffCached_Sieve <;> assumption) (by apply C04_noPhantom_Sieve <;> assumption)

theorem C105_firstMiss_Sieve : ∀ (cs md : ℕ) (adm : Adm), FirstMisses Sieve.algo (Sieve.init cs md adm) (SizeOk md) := by
  intros
  exact HitsAreEarned.firstMisses (p := { }) (by apply C105_earned_Sieve <;> assumption)

theorem C105_earned_SieveBelady_partial : ∀ (T : BeladyQueue.Thresh) (cs md : ℕ) (adm : Adm), HitsAreEarned (SieveBelady.algo T) (SieveBelady.init cs md adm) (Calls { } (SizeOk md)) := by
  intros
  exact earnedIf (cached := SieveBelady_cached) (by apply C03_hitIffCached_SieveBelady_partial <;> assumption) (by apply C04_noPhantom_SieveBelady_partial <;> assumption)

theorem C105_firstMiss_SieveBelady_partial : ∀ (T : BeladyQueue.Thresh) (cs md : ℕ) (adm : Adm), FirstMisses (SieveBelady.algo T) (SieveBelady.init cs md adm) (SizeOk md) := by
  intros
  exact HitsAreEarned.firstMisses (p := { }) (by apply C105_earned_SieveBelady_partial <;> assumption)

theorem C105_earned_Size : ∀ (cs md : ℕ) (adm : Adm), HitsAreEarned Size.algo (Size.init cs md adm) (Calls { } (SizeOk md)) := by
  intros
  exact earned (cached := Size_cached) (by apply C03_hitIffCached_Size <;> assumption) (by apply C04_noPhantom_Size <;> assumption)

theorem C105_firstMiss_Size : ∀ (cs md : ℕ) (adm : Adm), FirstMisses Size.algo (Size.init cs md adm) (SizeOk md) := by
  intros
  exact HitsAreEarned.firstMisses (p := { }) (by apply C105_earned_Size <;> assumption)

theorem C105_earned_TwoQ_partial : ∀ (cs as gs : ℕ), 2 * as ≤ cs → HitsAreEarned TwoQ.algo (TwoQ.init cs as gs 0) (Calls { ev := false, ins := false } fun (x : Req) => True) := by
  intros
  exact earned (cached := TwoQ_cached) (HitIffCached.mono (by intro op h; cases op <;> first | exact h | simp_all [Calls, noEvict]) (C03_hitIffCached_TwoQ_partial _ _ _ ‹_›)) (by apply C04_noPhantom_TwoQ_partial <;> assumption)

theorem C105_firstMiss_TwoQ_partial : ∀ (cs as gs : ℕ), 2 * as ≤ cs → FirstMisses TwoQ.algo (TwoQ.init cs as gs 0) (fun (x : Req) => True) := by
  intros
  exact HitsAreEarned.firstMisses (p := { ev := false, ins := false }) (by apply C105_earned_TwoQ_partial <;> assumption)

theorem C105_earned_WTinyLFULRU_partial : ∀ (H : CBF.Hashes ObjId) (cs ms : ℕ) (adm : Adm) (num hs : ℕ), 0 < num → ∀ (p : Perms), HitsAreEarned (WTinyLFU.onLRU H) (WTinyLFU.initLRU cs ms adm num hs) (Calls p (WTinyLFU.Fits ms p)) := by
  intros
  exact earned (cached := WTinyLFULRU_cached) (by apply C03_hitIffCached_WTinyLFULRU_partial <;> assumption) (by apply C04_noPhantom_WTinyLFULRU_partial <;> assumption)

theorem C105_firstMiss_WTinyLFULRU_partial : ∀ (H : CBF.Hashes ObjId) (cs ms : ℕ) (adm : Adm) (num hs : ℕ), 0 < num → ∀ (p : Perms), FirstMisses (WTinyLFU.onLRU H) (WTinyLFU.initLRU cs ms adm num hs) (WTinyLFU.Fits ms p) := by
  intros
  apply HitsAreEarned.firstMisses
  apply C105_earned_WTinyLFULRU_partial <;> assumption

theorem C105_earned_WTinyLFUFIFO_partial : ∀ (H : CBF.Hashes ObjId) (cs ms : ℕ) (adm : Adm) (num hs : ℕ), 0 < num → ∀ (p : Perms), HitsAreEarned (WTinyLFU.onFIFO H) (WTinyLFU.initFIFO cs ms adm num hs) (Calls p (WTinyLFU.Fits ms p)) := by
  intros
  exact earned (cached := WTinyLFUFIFO_cached) (by apply C03_hitIffCached_WTinyLFUFIFO_partial <;> assumption) (by apply C04_noPhantom_WTinyLFUFIFO_partial <;> assumption)

theorem C105_firstMiss_WTinyLFUFIFO_partial : ∀ (H : CBF.Hashes ObjId) (cs ms : ℕ) (adm : Adm) (num hs : ℕ), 0 < num → ∀ (p : Perms), FirstMisses (WTinyLFU.onFIFO H) (WTinyLFU.initFIFO cs ms adm num hs) (WTinyLFU.Fits ms p) := by
  intros
  apply HitsAreEarned.firstMisses
  apply C105_earned_WTinyLFUFIFO_partial <;> assumption

theorem C105_earned_WTinyLFUSLRU_partial : ∀ (H : CBF.Hashes ObjId) (cs ms n : ℕ) (lim : ℕ → ℕ), 1 ≤ n → lim 0 ≤ ms → ∀ (adm : Adm) (num hs : ℕ), 0 < num → ∀ (p : Perms), p.rem = false → HitsAreEarned (WTinyLFU.onSLRU H) (WTinyLFU.initSLRU cs ms n lim adm num hs) (Calls p (WTinyLFU.Fits (lim 0) p)) := by
  intros
  exact earned (cached := WTinyLFUSLRU_cached) (by apply C03_hitIffCached_WTinyLFUSLRU_partial <;> assumption) (by apply C04_noPhantom_WTinyLFUSLRU_partial <;> assumption)

theorem C105_firstMiss_WTinyLFUSLRU_partial : ∀ (H : CBF.Hashes ObjId) (cs ms n : ℕ) (lim : ℕ → ℕ), 1 ≤ n → lim 0 ≤ ms → ∀ (adm : Adm) (num hs : ℕ), 0 < num → ∀ (p : Perms), p.rem = false → FirstMisses (WTinyLFU.onSLRU H) (WTinyLFU.initSLRU cs ms n lim adm num hs) (WTinyLFU.Fits (lim 0) p) := by
  intros
  apply HitsAreEarned.firstMisses
  apply C105_earned_WTinyLFUSLRU_partial <;> assumption

/-- A miss, a hit, and a miss again after a removal. -/
example : (LRU.algo.run (LRU.init 10 0 .none) [.get ⟨1, 1, -2⟩, .get ⟨1, 1, -2⟩, .remove 1, .get ⟨1, 1, -2⟩]).map Prod.fst = .ok [false, true, true, false] := by decide +kernel

end Verif.Props
