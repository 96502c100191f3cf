import Verif.Utils.Sampling
import Mathlib.Data.List.Basic
/-!
# C37: sampling
-/

namespace Verif.Props
open Verif Verif.Sampling

/-- C37: for any hash function and any ratio, the requests delivered by a spatially sampled trace are those whose id hashes to
a multiple of the inverse ratio, in order. -/
theorem C37_spatial (hash : Nat → Nat) (inv : Nat) (hinv : 0 < inv) (rs : List SReq) (h0 : ∀ r ∈ rs, r.hv = 0) :
    ∃ out, spatialTrace hash inv rs = .ok out ∧
      out.map (·.id) = (rs.map (·.id)).filter (fun id => decide (hash id % inv = 0)) := by
  induction rs with
  | nil => exact ⟨[], rfl, rfl⟩
  | cons r rs ih =>
    obtain ⟨out, e, f⟩ := ih (fun q hq => h0 q (by simp [hq]))
    have hr := h0 r (by simp)
    have hs : spatialSample hash inv r = .ok (decide (hash r.id % inv = 0), { r with hv := hash r.id }) := by
      unfold spatialSample; simp [hr, Nat.ne_of_gt hinv]
    refine ⟨_, by rw [spatialTrace, hs]; simp only [Res.bind_ok]; rw [e]; rfl, ?_⟩
    by_cases hh : hash r.id % inv = 0
    · simp [hh, f]
    · simp [hh, f]

/-- C37: of each object either all or none of its requests are delivered. -/
theorem C37_spatial_allOrNone (hash : Nat → Nat) (inv : Nat) (hinv : 0 < inv) (rs : List SReq) (h0 : ∀ r ∈ rs, r.hv = 0)
    (id : Nat) : ∃ out, spatialTrace hash inv rs = .ok out ∧
      ((out.map (·.id)).count id = (rs.map (·.id)).count id ∨ (out.map (·.id)).count id = 0) := by
  obtain ⟨out, e, f⟩ := C37_spatial hash inv hinv rs h0
  refine ⟨out, e, ?_⟩
  rw [f]
  by_cases h : hash id % inv = 0
  · exact Or.inl (List.count_filter (by simpa using h))
  · right
    rw [List.count_eq_zero]
    intro hm
    have := (List.mem_filter.1 hm).2
    simp [h] at this

example : ∃ out, spatialTrace (fun n => 3 * n) 2 [⟨4, 0⟩, ⟨5, 0⟩, ⟨4, 0⟩, ⟨8, 0⟩] = .ok out ∧ out.map (·.id) = [4, 4, 8] := by
  exact ⟨[⟨4, 12⟩, ⟨4, 12⟩, ⟨8, 24⟩], by decide, by decide⟩

theorem temporal_gen (inv : Nat) (hinv : 0 < inv) : ∀ (k c : Nat), c < inv → ∀ n < k,
    (temporalRun inv c k)[n]? = some (decide ((c + n + 1) % inv = 0))
  | 0, c, hc, n, hn => by omega
  | k + 1, c, hc, n, hn => by
    rw [temporalRun]
    by_cases he : (c : Int) + 1 = inv
    · have hs : temporalSample inv c = (true, 0) := by unfold temporalSample; rw [if_pos he]
      rw [hs]
      have he' : c + 1 = inv := by omega
      cases n with
      | zero => simp [he']
      | succ n =>
        rw [List.getElem?_cons_succ]
        have ih := temporal_gen inv hinv k 0 hinv n (by omega)
        simp only [Int.ofNat_zero, Int.cast_ofNat_Int] at ih
        simp only
        rw [ih]
        congr 2
        rw [show c + (n + 1) + 1 = (0 + n + 1) + inv by omega, Nat.add_mod_right]
    · have hs : temporalSample inv c = (false, ((c + 1 : Nat) : Int)) := by
        unfold temporalSample; rw [if_neg he]; simp
      rw [hs]
      have he' : c + 1 < inv := by omega
      cases n with
      | zero =>
        have : (c + 0 + 1) % inv = c + 1 := by rw [Nat.add_zero]; exact Nat.mod_eq_of_lt he'
        simp [Nat.mod_eq_of_lt he']
      | succ n =>
        rw [List.getElem?_cons_succ]
        simp only
        rw [temporal_gen inv hinv k (c + 1) he' n (by omega)]
        congr 2
        congr 1
        rw [show c + 1 + n + 1 = c + (n + 1) + 1 by omega]

/-- C37: a new temporal sampler delivers exactly every `inv`-th request: of any `k` requests, the one at position `n`
(from 0) is kept if and only if `inv` divides `n + 1`. -/
theorem C37_temporal (inv : Nat) (hinv : 0 < inv) (k n : Nat) (hn : n < k) :
    (temporalRun inv 0 k)[n]? = some (decide (inv ∣ n + 1)) := by
  have := temporal_gen inv hinv k 0 hinv n hn
  simp only [Int.cast_ofNat_Int, Nat.zero_add] at this
  rw [this]
  congr 1
  simp [Nat.dvd_iff_mod_eq_zero]

/-- C37: hence `k` requests yield `k / inv` sampled ones -/
theorem C37_temporal_count (inv : Nat) (hinv : 0 < inv) (k : Nat) : (temporalRun inv 0 k).count true = k / inv := by
  have gen : ∀ (k c : Nat), c < inv → (temporalRun inv c k).count true = (c + k) / inv := by
    intro k
    induction k with
    | zero => intro c hc; simp [temporalRun, Nat.div_eq_of_lt hc]
    | succ k ih =>
      intro c hc
      rw [temporalRun]
      by_cases he : (c : Int) + 1 = inv
      · have hs : temporalSample inv c = (true, ((0 : Nat) : Int)) := by unfold temporalSample; rw [if_pos he]; rfl
        rw [hs, List.count_cons, ih 0 hinv]
        have he' : c + 1 = inv := by omega
        rw [show c + (k + 1) = (0 + k) + inv by omega, Nat.add_div_right _ hinv]
        simp
      · have hs : temporalSample inv c = (false, ((c + 1 : Nat) : Int)) := by
          unfold temporalSample; rw [if_neg he]; simp
        rw [hs, List.count_cons, ih (c + 1) (by omega)]
        simp only [show c + 1 + k = c + (k + 1) by omega]
        simp
  have := gen k 0 hinv
  simpa using this

example : temporalRun 3 0 8 = [false, false, true, false, false, true, false, false] := by decide

end Verif.Props
