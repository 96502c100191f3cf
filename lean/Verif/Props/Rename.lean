import Verif.Proof.Rename
import Verif.Props.LRU
import Verif.Props.FIFO
import Verif.Props.MRU
import Verif.Props.Clock
import Verif.Props.Sieve
import Verif.Props.LFU
import Verif.Props.LRUProb
import Mathlib.Logic.Equiv.Basic
/-!
# C107: names and units

Object ids are only names, and bytes are only units. Giving every object another name and measuring all sizes (cache, metadata, objects) in another unit does not change a single answer.
-/

namespace Verif.Props
open Verif Verif.Spec

theorem C107_namesAndUnits_LRU : NamesAndUnits LRU.algo (fun cs md adm => LRU.init cs md adm) (fun _ md => Calls {} (SizeOk md)) :=
  namesAndUnits (fun cs md adm => C11_lru_LRU cs md adm) (fun _ _ hf hk => ⟨_, equi_lru hf hk, rfl⟩) fun f k _ md op _ h hm => calls_rename f k md op h hm

theorem C107_namesAndUnits_FIFO : NamesAndUnits FIFO.algo (fun cs md adm => FIFO.init cs md adm) (fun _ md => Calls {} (SizeOk md)) :=
  namesAndUnits (fun cs md adm => C13_fifo_FIFO cs md adm) (fun _ _ hf hk => ⟨_, equi_fifo hf hk, rfl⟩) fun f k _ md op _ h hm => calls_rename f k md op h hm

theorem C107_namesAndUnits_Clock (maxFreq : Nat) : NamesAndUnits Clock.algo (fun cs md adm => Clock.init cs md maxFreq adm) (fun _ md => Calls {} (SizeOk md)) :=
  namesAndUnits (fun cs md adm => C14_clock_Clock cs md maxFreq adm) (fun _ _ hf hk => ⟨_, equi_clock hf maxFreq hk, rfl⟩) fun f k _ md op _ h hm => calls_rename f k md op h hm

theorem C107_namesAndUnits_Sieve : NamesAndUnits Sieve.algo (fun cs md adm => Sieve.init cs md adm) (fun _ md => Calls {} (SizeOk md)) :=
  namesAndUnits (fun cs md adm => C15_sieve_Sieve cs md adm) (fun _ _ hf hk => ⟨_, equi_sieve hf hk, rfl⟩) fun f k _ md op _ h hm => calls_rename f k md op h hm

theorem C107_namesAndUnits_LFU : NamesAndUnits LFU.algo (fun cs md adm => LFU.init cs md adm) (fun _ md => Calls {} (SizeOk md)) :=
  namesAndUnits (fun cs md adm => C16_lfu_LFU cs md adm) (fun _ _ hf hk => ⟨_, equi_lfu hf hk, rfl⟩) fun f k _ md op _ h hm => calls_rename f k md op h hm

/-- LRU_Prob, with the same random numbers in both runs. -/
theorem C107_namesAndUnits_LRUProb_partial (n : Nat) (hn : 0 < n) (picks : List Nat) :
    NamesAndUnits LRUProb.algo (fun cs md adm => LRUProb.init cs md adm false n picks) (fun _ md => Calls {} (SizeOk md)) :=
  namesAndUnits (fun cs md adm => C55_lruProb_LRUProb_partial cs md n hn adm picks) (fun _ _ hf hk => ⟨_, equi_lruProb hf n hk, rfl⟩) fun f k _ md op _ h hm => calls_rename f k md op h hm

/-- MRU, as far as it follows its discipline (C17). -/
theorem C107_namesAndUnits_MRU_partial : NamesAndUnits MRU.algo (fun cs md adm => MRU.init cs md adm) (fun cs md => Calls { ev := false } (AnyTwoFit cs md)) := by
  refine namesAndUnits (fun cs md adm => C17_mru_MRU_partial cs md adm) (fun _ _ hf hk => ⟨_, equi_mru hf hk, rfl⟩) fun f k cs md op hk h hm => ?_
  have key : ∀ r, insertedBy op = some r → AnyTwoFit cs md r → AnyTwoFit (k * cs) (k * md) (renameReq f k r) := fun r hr ha => by
    have h1 := hm r hr
    have e : (renameReq f k r).size + k * md = k * (r.size + md) := (Nat.mul_add _ _ _).symm
    refine ⟨calls_rename (p := {}) f k md (.get r) ha.1 (fun q hq => by cases hq; exact h1), ?_⟩
    rw [e]
    rcases ha.2 with h2 | h2
    · refine .inl ?_
      have := Nat.mul_le_mul_left k h2
      rw [Nat.mul_left_comm]; exact this
    · exact .inr (Nat.mul_lt_mul_of_pos_left h2 hk)
  cases op with
  | get r => exact key r rfl h
  | find r u => exact h
  | remove id => exact h
  | evict r => exact h
  | insert r => exact ⟨h.1, key r rfl h.2⟩

/-- Ids moved by 100, kilobytes for bytes: a hit, an eviction and a removal. -/
example : (∀ op ∈ [Op.get ⟨1, 4, -2⟩, .get ⟨2, 3, -2⟩, .get ⟨1, 4, -2⟩, .remove 1], Calls {} (SizeOk 0) op ∧ Measurable 1000 0 op) := by
  intro op h
  simp only [List.mem_cons, List.not_mem_nil, or_false] at h
  rcases h with rfl | rfl | rfl | rfl <;> simp [Calls, SizeOk, Measurable, insertedBy, u32]
example : (LRU.algo.run (LRU.init 10 0 .none) [.get ⟨1, 4, -2⟩, .get ⟨2, 3, -2⟩, .get ⟨3, 4, -2⟩, .get ⟨2, 3, -2⟩, .remove 1, .remove 2]).map Prod.fst = .ok [false, false, false, true, false, true] ∧
    (LRU.algo.run (LRU.init 10000 0 .none) [.get ⟨101, 4000, -2⟩, .get ⟨102, 3000, -2⟩, .get ⟨103, 4000, -2⟩, .get ⟨102, 3000, -2⟩, .remove 101, .remove 102]).map Prod.fst =
      .ok [false, false, false, true, false, true] := by decide +kernel

/-- The admission policy must not look at the ids: the Bloom-filter policy never finds an id of more than 32 bits again, so that another name turns a hit into a miss. -/
theorem C107_bloom_fails_LRU : ∃ (f : ObjId → ObjId) (trace : List Req), Function.Injective f ∧
    answers LRU.algo (LRU.init 10 0 (.bloom [])) (trace.map Op.get) = some [false, false, true] ∧
    answers LRU.algo (LRU.init 10 0 (.bloom [])) ((trace.map Op.get).map (renameOp f 1)) = some [false, false, false] :=
  ⟨Equiv.swap 2 (2 ^ 32), [⟨2, 1, -2⟩, ⟨2, 1, -2⟩, ⟨2, 1, -2⟩], Equiv.injective _, by decide +kernel, by decide +kernel⟩

end Verif.Props
