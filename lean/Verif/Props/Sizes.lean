import Verif.Spec.Sizes
import Verif.Props.LRU
import Verif.Props.FIFO
import Verif.Props.Clock
import Verif.Props.Sieve
import Verif.Props.MRU
import Verif.Props.LFU
import Verif.Props.Size
import Verif.Props.Belady
import Verif.Props.Random
import Verif.Props.RandomTwo
import Verif.Props.RandomLRU
import Verif.Props.S3FIFO
import Verif.Props.TwoQ
import Verif.Props.SLRU
import Verif.Props.ARC
import Verif.Props.GDSF
import Verif.Props.LFUCpp
/-!
# C25: object sizes (`copy_request_to_cache_obj`, libCacheSim/cache/cacheObj.c; `obj_size` is a `uint32_t`)

A request carries a 64-bit size, a cached object a 32-bit one.  Below 4 GiB the size is stored faithfully, for every
algorithm; from 4 GiB on it is not, and what `get_occupied_byte` reports is no longer what the client asked to store.
With per-object metadata the counters even stop adding up, because insertion adds in 64 bits and removal subtracts in 32.
-/

namespace Verif.Props
open Verif Verif.Spec
set_option linter.unusedVariables false

/-- the exact size arithmetic of an insertion: sizes are kept modulo 2^32 -/
theorem C25_storedSize {μ : Type} (z : μ) (r : Req) : (Obj.ofReq z r).size = r.size ↔ r.size < 2 ^ 32 := by
  simp only [Obj.ofReq, u32]
  omega

private theorem faithful {σ : Type} {A : Algo σ} {cached : σ → Contents} {s0 : σ} {p : Perms} {ok : Req → Prop}
    (h : NoPhantom A cached s0 (Calls p ok)) : SizesFaithful A cached s0 (Calls p (Under4G ok)) := by
  intro ops out s ho hr x hx
  have hc : ∀ op ∈ ops, Calls p ok op := by
    intro op hop
    have := ho op hop
    cases op with
    | get r => exact this.1
    | insert r => exact ⟨this.1, this.2.1⟩
    | find r u => exact this
    | remove id => exact this
    | evict r => exact this
  obtain ⟨pre, op, post, r, e, hi, h1, h2, _⟩ := (h ops out s hc hr).2 x hx
  have hmem : op ∈ ops := by rw [e]; simp
  have hlt : r.size < 2 ^ 32 := by
    have := ho op hmem
    cases op with
    | get r' => injection hi with hi; subst hi; exact this.2
    | insert r' => injection hi with hi; subst hi; exact this.2.2
    | find r u => cases hi
    | remove id => cases hi
    | evict r => cases hi
  exact ⟨op, hmem, r, hi, h1, by rw [← h2]; simp only [u32]; omega⟩

theorem C25_sizes_GDSF_partial {P : Type} [LinearOrder P] (start : P) (score : P → Nat → Nat → P) (cs md : Nat) (adm : Adm) :
    SizesFaithful (GDSF.algo start score) GDSF_cached (GDSF.init start score cs md adm) (Calls GDSF.perms (Under4G (SizeOk md))) :=
  faithful (C04_noPhantom_GDSF_partial start score cs md adm)

theorem C25_sizes_LFUCpp_partial (cs md : Nat) (adm : Adm) :
    SizesFaithful LFUCpp.algo LFUCpp_cached (LFUCpp.init cs md adm) (Calls LFUCpp.perms (Under4G (SizeOk md))) :=
  faithful (C04_noPhantom_LFUCpp_partial cs md adm)

theorem C25_sizes_LRU_partial (cs md : Nat) (adm : Adm) :
    SizesFaithful LRU.algo LRU_cached (LRU.init cs md adm) (Calls {} (Under4G (SizeOk md))) := faithful (C04_noPhantom_LRU cs md adm)

theorem C25_sizes_FIFO_partial (cs md : Nat) (adm : Adm) :
    SizesFaithful FIFO.algo FIFO_cached (FIFO.init cs md adm) (Calls {} (Under4G (SizeOk md))) := faithful (C04_noPhantom_FIFO cs md adm)

theorem C25_sizes_Clock_partial (cs md maxFreq : Nat) (adm : Adm) :
    SizesFaithful Clock.algo Clock_cached (Clock.init cs md maxFreq adm) (Calls {} (Under4G (SizeOk md))) :=
  faithful (C04_noPhantom_Clock cs md maxFreq adm)

theorem C25_sizes_Sieve_partial (cs md : Nat) (adm : Adm) :
    SizesFaithful Sieve.algo Sieve_cached (Sieve.init cs md adm) (Calls {} (Under4G (SizeOk md))) := faithful (C04_noPhantom_Sieve cs md adm)

theorem C25_sizes_MRU_partial (cs md : Nat) (adm : Adm) :
    SizesFaithful MRU.algo MRU_cached (MRU.init cs md adm) (Calls { ev := false } (Under4G (AnyTwoFit cs md))) :=
  faithful (C04_noPhantom_MRU_partial cs md adm)

theorem C25_sizes_LFU_partial (cs md : Nat) (adm : Adm) :
    SizesFaithful LFU.algo LFU_cached (LFU.init cs md adm) (Calls {} (Under4G (SizeOk md))) := faithful (C04_noPhantom_LFU cs md adm)

theorem C25_sizes_Size_partial (cs md : Nat) (adm : Adm) :
    SizesFaithful Size.algo Size_cached (Size.init cs md adm) (Calls {} (Under4G (SizeOk md))) := faithful (C04_noPhantom_Size cs md adm)

theorem C25_sizes_Belady_partial (cs md : Nat) (adm : Adm) :
    SizesFaithful Belady.algo Belady_cached (Belady.init cs md adm) (Calls {} (Under4G (Belady.Ok md))) :=
  faithful (C04_noPhantom_Belady cs md adm)

theorem C25_sizes_Random_partial (cs md : Nat) (adm : Adm) (picks : List Nat) :
    SizesFaithful Random.algo Random_cached (Random.init cs md adm picks) (Calls {} (Under4G (SizeOk md))) :=
  faithful (C04_noPhantom_Random cs md adm picks)

theorem C25_sizes_RandomTwo_partial (cs md : Nat) (adm : Adm) (picks : List Nat) :
    SizesFaithful RandomTwo.algo RandomTwo_cached (RandomTwo.init cs md adm picks) (Calls {} (Under4G (SizeOk md))) :=
  faithful (C04_noPhantom_RandomTwo cs md adm picks)

theorem C25_sizes_RandomLRU_partial (cs md : Nat) (adm : Adm) (picks : List Nat) :
    SizesFaithful RandomLRU.algo RandomLRU_cached (RandomLRU.init cs md adm picks) (Calls {} (Under4G (SizeOk md))) :=
  faithful (C04_noPhantom_RandomLRU cs md adm picks)

theorem C25_sizes_S3FIFO_partial (cs fs gs thr : Nat) (h : fs ≤ cs) :
    SizesFaithful S3FIFO.algo S3FIFO_cached (S3FIFO.init cs fs gs thr) (Calls { ins := false } (Under4G (fun _ => True))) :=
  faithful (C04_noPhantom_S3FIFO_partial cs fs gs thr h)

theorem C25_sizes_TwoQ_partial (cs as gs : Nat) (h : 2 * as ≤ cs) :
    SizesFaithful TwoQ.algo TwoQ_cached (TwoQ.init cs as gs 0) (Calls { ev := false, ins := false } (Under4G (fun _ => True))) :=
  faithful (C04_noPhantom_TwoQ_partial cs as gs h)

theorem C25_sizes_SLRU_partial (cs n : Nat) (lim : Nat → Nat) (adm : Adm) (p : Perms) (hn : 1 ≤ n) (hp : p.rem = false) :
    SizesFaithful SLRU.algo SLRU_cached (SLRU.init cs 0 adm n lim) (Calls p (Under4G (Segmented.Requests lim p))) :=
  faithful (C04_noPhantom_SLRU_partial cs n lim adm p hn hp)

theorem C25_sizes_ARC_partial (R : ARC.Arith) (cs md : Nat) (adm : Adm) :
    SizesFaithful (ARC.algo R) ARC_cached (ARC.init cs md adm) (Calls { peek := false, rem := false, ev := false, ins := false } (Under4G (Adaptive.Requests cs md))) :=
  faithful (C04_noPhantom_ARC_partial R cs md adm)

/-- all calls of the demo are below 4 GiB -/
example : ∀ op ∈ demo, Calls {} (Under4G (SizeOk 0)) op := by
  intro op hop
  simp only [demo, List.mem_cons, List.not_mem_nil, or_false] at hop
  rcases hop with rfl | rfl | rfl | rfl | rfl | rfl | rfl | rfl | rfl | rfl | rfl | rfl | rfl | rfl | rfl | rfl | rfl <;>
    simp [Calls, SizeOk, Under4G, u32]

/-- An 8 GiB LRU cache stores an object of 4 GiB and 5 bytes with size 5. -/
theorem C25_sizes_fails_LRU :
    ¬ SizesFaithful LRU.algo LRU_cached (LRU.init (2 ^ 33) 0 .none) (Calls {} (SizeOk 0)) := by
  intro h
  have hr : Reaches LRU.algo (LRU.init (2 ^ 33) 0 .none) [.get ⟨1, 2 ^ 32 + 5, -2⟩] [false]
    (after LRU.algo (LRU.init (2 ^ 33) 0 .none) [.get ⟨1, 2 ^ 32 + 5, -2⟩]) := reaches_after (by decide +kernel)
  obtain ⟨op, hop, r, h1, h2, h3⟩ := h _ _ _ (by simp [Calls, SizeOk, u32]) hr (1, 5) (by decide +kernel)
  simp only [List.mem_singleton] at hop
  subst hop
  injection h1 with h1
  subst h1
  simp at h3

/-- Three objects of 4 GiB "fit" into an 8 GiB LRU cache, which reports to be empty of bytes. -/
theorem C25_capacity_fails_LRU :
    let s := after LRU.algo (LRU.init (2 ^ 33) 0 .none) [.get ⟨1, 2 ^ 32, -2⟩, .get ⟨2, 2 ^ 32, -2⟩, .get ⟨3, 2 ^ 32, -2⟩]
    Reaches LRU.algo (LRU.init (2 ^ 33) 0 .none) [.get ⟨1, 2 ^ 32, -2⟩, .get ⟨2, 2 ^ 32, -2⟩, .get ⟨3, 2 ^ 32, -2⟩] [false, false, false] s ∧
      LRU.algo.nObj s = 3 ∧ LRU.algo.occ s = 0 := by
  refine ⟨reaches_after ?_, ?_, ?_⟩ <;> decide +kernel

/-- With 16 bytes of metadata per object, inserting and removing one object of 6 bytes less than 4 GiB leaves an empty
cache that reports 4 GiB occupied. -/
theorem C02_accounting_fails_LRU :
    ¬ Accounting LRU.algo LRU_cached (LRU.init (2 ^ 33) (LRU.mdSize true) .none) (Calls {} (fun _ => True)) (LRU.mdSize true) := by
  intro h
  have hr : Reaches LRU.algo (LRU.init (2 ^ 33) (LRU.mdSize true) .none) [.get ⟨1, 2 ^ 32 - 6, -2⟩, .remove 1] [false, true]
    (after LRU.algo (LRU.init (2 ^ 33) (LRU.mdSize true) .none) [.get ⟨1, 2 ^ 32 - 6, -2⟩, .remove 1]) := reaches_after (by decide +kernel)
  have := (h _ _ _ (by simp [Calls]) hr).1
  revert this
  decide +kernel

/-- The drift ends in a crash: a get that no longer finds anything to evict dereferences a NULL tail. -/
theorem C09_drift_fails_LRU :
    faultOf LRU.algo (LRU.init (2 ^ 33) (LRU.mdSize true) .none)
      [.get ⟨1, 2 ^ 32 - 6, -2⟩, .remove 1, .get ⟨2, 2 ^ 32 - 6, -2⟩] = some .nullDeref := by decide +kernel

end Verif.Props
