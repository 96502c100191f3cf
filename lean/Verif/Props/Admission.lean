import Verif.Utils.Admission
import Mathlib.Data.List.Basic
/-!
# C41: admission policies
-/

namespace Verif.Admission
open Verif

theorem lookup_insert (t : GTable) (k v j : Nat) : lookup (insert t k v) j = if k = j then v else lookup t j := by
  unfold lookup insert
  rw [List.find?_cons]
  by_cases h : k = j
  · subst h; simp
  · have : (k == j) = false := by simpa using h
    rw [this, if_neg h]
    simp only
    congr 2
    induction t with
    | nil => rfl
    | cons e t ih =>
      rw [List.filter_cons]
      by_cases he : e.1 = k
      · have h1 : (e.1 != k) = false := by simp [he]
        have h2 : (e.1 == j) = false := by simp [he, h]
        rw [h1, List.find?_cons, h2]; simpa using ih
      · have h1 : (e.1 != k) = true := by simp [he]
        rw [h1]
        simp only [if_true]
        rw [List.find?_cons, List.find?_cons]
        cases (e.1 == j) <;> simp [ih]

theorem gint_small {n : Nat} (h : n < 2147483648) : gintToPointer n = n := by
  unfold gintToPointer
  have : n % u32 = n := Nat.mod_eq_of_lt (by simp only [u32]; omega)
  simp [this, h]

/-- table `t` stores for every id how often it occurred in `past` -/
def Counts (t : GTable) (past : List Nat) : Prop := ∀ id, lookup t id = past.count id

theorem admit_spec {t : GTable} {past : List Nat} {id : Nat} (h : Counts t past) (hid : id < 2147483648)
    (hlen : past.length + 1 < 2147483648) :
    ∃ t', bloomAdmit t id = .ok (past.contains id, t') ∧ Counts t' (past ++ [id]) := by
  have hc : past.count id ≤ past.length := List.count_le_length
  have cnt : ∀ j, (past ++ [id]).count j = if id = j then past.count id + 1 else past.count j := by
    intro j
    rw [List.count_append]
    by_cases e : id = j
    · subst e; simp
    · simp [e]
  unfold bloomAdmit gsizeToPointer
  simp only [h id, gint_small hid]
  by_cases h0 : past.count id = 0
  · rw [if_pos h0]
    refine ⟨insert t id 1, ?_, ?_⟩
    · have : id ∉ past := List.count_eq_zero.1 h0
      rw [show past.contains id = false by simpa using this]
    · intro j
      rw [lookup_insert, cnt, h0]
      simp [h j]
  · rw [if_neg h0, if_pos (by omega), gint_small (by omega)]
    refine ⟨insert t id (List.count id past + 1), ?_, ?_⟩
    · have : id ∈ past := by
        by_contra hn; exact h0 (List.count_eq_zero.2 hn)
      rw [show past.contains id = true by simpa using this]
    · intro j
      rw [lookup_insert, cnt]
      simp [h j]

theorem run_spec : ∀ (ids : List Nat) {t : GTable} {past : List Nat}, Counts t past → (∀ id ∈ ids, id < 2147483648) →
    past.length + ids.length < 2147483648 →
    ∃ as t', bloomRun t ids = .ok (as, t') ∧ as.length = ids.length ∧
      ∀ n id, ids[n]? = some id → as[n]? = some ((past ++ ids.take n).contains id)
  | [], t, past, h, hid, hl => ⟨[], t, rfl, rfl, by simp⟩
  | id :: ids, t, past, h, hid, hl => by
    simp only [List.length_cons] at hl
    obtain ⟨t1, e1, c1⟩ := admit_spec h (hid id (by simp)) (by omega)
    obtain ⟨as, t', e, la, sp⟩ := run_spec ids c1 (fun j hj => hid j (by simp [hj])) (by simp; omega)
    refine ⟨past.contains id :: as, t', by simp [bloomRun, e1, e], by simp [la], ?_⟩
    intro n j hj
    cases n with
    | zero =>
      simp only [List.getElem?_cons_zero, Option.some.injEq] at hj
      subst hj
      rw [List.take_zero, List.append_nil]
      rfl
    | succ n =>
      rw [List.getElem?_cons_succ] at hj ⊢
      rw [sp n j hj]
      simp [List.append_assoc]

end Verif.Admission

namespace Verif.Props
open Verif Verif.Admission

/-- C41: with ids below 2^31 and fewer than 2^31 requests, bloomfilter admission answers "yes" to a request exactly if the
same id was requested before.  Missing for the full property: ids from 2^31 on, see `C41_bloom_fails`. -/
theorem C41_bloom_partial (ids : List Nat) (hid : ∀ id ∈ ids, id < 2 ^ 31) (hl : ids.length < 2 ^ 31) :
    ∃ as t, bloomRun [] ids = .ok (as, t) ∧ as.length = ids.length ∧
      ∀ n id, ids[n]? = some id → (as[n]? = some true ↔ id ∈ ids.take n) := by
  obtain ⟨as, t, e, la, sp⟩ := run_spec ids (t := []) (past := []) (fun id => by simp [lookup]) hid (by simpa using hl)
  refine ⟨as, t, e, la, ?_⟩
  intro n id h
  rw [sp n id h]
  simp

example : ∃ as t, bloomRun [] [7, 3, 7, 2147483647, 3, 7, 2147483647] = .ok (as, t) ∧ as.length = 7 ∧
    ∀ n id, [7, 3, 7, 2147483647, 3, 7, 2147483647][n]? = some id →
      (as[n]? = some true ↔ id ∈ [7, 3, 7, 2147483647, 3, 7, 2147483647].take n) :=
  C41_bloom_partial _ (by decide) (by decide)

example : (bloomRun [] [7, 3, 7, 2147483647, 3, 7, 2147483647]).map (·.1) = .ok [false, false, true, false, true, true, true] := by decide

/-- C41 is false for larger ids: an object with id 2^31 is never admitted however often it is requested (the table is
searched with the 64-bit id and updated with the sign-extended 32-bit id), bloomfilter.c:20-22. -/
theorem C41_bloom_fails : ¬ ∀ ids : List Nat, (∀ id ∈ ids, id < 2 ^ 64) → ids.length < 2 ^ 31 →
    ∃ as t, bloomRun [] ids = .ok (as, t) ∧ ∀ n id, ids[n]? = some id → (as[n]? = some true ↔ id ∈ ids.take n) := by
  intro h
  obtain ⟨as, t, e, sp⟩ := h [2147483648, 2147483648] (by decide) (by decide)
  have : bloomRun [] [2147483648, 2147483648] = .ok ([false, false], [(18446744071562067968, 1)]) := by decide
  rw [this] at e
  simp only [Except.ok.injEq, Prod.mk.injEq] at e
  have := (sp 1 2147483648 rfl).2 (by decide)
  rw [← e.1] at this
  revert this; decide

/-- and an object is admitted at its very first request if another one with the same low 32 bits came before -/
theorem C41_bloom_first_fails : (bloomRun [] [4294967301, 5]).map (·.1) = .ok [false, true] := by decide

/-- every id at or above 2^31 whose sign-extended low half differs from it is never admitted unless an id mapping to it came first:
for a single object the answers are all "no" for ever -/
theorem C41_bloom_bigIdNeverAdmitted (id : Nat) (h : gintToPointer id ≠ id) (n : Nat) :
    ∃ t, bloomRun [] (List.replicate n id) = .ok (List.replicate n false, t) := by
  have key : ∀ n t, lookup t id = 0 → ∃ t', bloomRun t (List.replicate n id) = .ok (List.replicate n false, t') := by
    intro n
    induction n with
    | zero => exact fun t _ => ⟨t, rfl⟩
    | succ n ih =>
      intro t ht
      obtain ⟨t', e⟩ := ih (Admission.insert t (gintToPointer id) 1) (by rw [lookup_insert, if_neg h]; exact ht)
      refine ⟨t', ?_⟩
      rw [List.replicate_succ, bloomRun]
      have : bloomAdmit t id = .ok (false, Admission.insert t (gintToPointer id) 1) := by
        unfold bloomAdmit gsizeToPointer; simp [ht]
      rw [this]
      simp [e, List.replicate_succ]
  exact key n [] rfl

example : gintToPointer 2147483648 ≠ 2147483648 ∧ gintToPointer 4294967301 ≠ 4294967301 := by decide

/-- C41: the size policy admits exactly the objects smaller than the threshold. -/
theorem C41_size (threshold size : Int) : sizeAdmit threshold size = true ↔ size < threshold := by
  unfold sizeAdmit; simp

example : sizeAdmit 100 99 = true ∧ sizeAdmit 100 100 = false := by decide

/-- C41: the policy used in the cache model decides in the same way, for every sequence of requests. -/
theorem C41_size_model (t : Int) (rs : List Req) :
    (rs.foldl (fun (p : List Bool × Adm) r => (p.1 ++ [(p.2.admit r).1], (p.2.admit r).2)) ([], Adm.size t)) =
      (rs.map (fun r => decide ((r.size : Int) < t)), Adm.size t) := by
  have gen : ∀ acc, (rs.foldl (fun (p : List Bool × Adm) r => (p.1 ++ [(p.2.admit r).1], (p.2.admit r).2)) (acc, Adm.size t)) =
      (acc ++ rs.map (fun r => decide ((r.size : Int) < t)), Adm.size t) := by
    induction rs with
    | nil => intro acc; simp
    | cons r rs ih => intro acc; exact (ih (acc ++ [decide ((r.size : Int) < t)])).trans (by simp)
  simpa using gen []

/-- C41: with threshold 10^7 (probability 1) the probabilistic policy admits everything, whatever the state of the generator;
with threshold 0 nothing. -/
theorem C41_prob_extremes (seed : Nat) : (probAdmit seed 10000000).1 = true ∧ (probAdmit seed 0).1 = false := by
  unfold probAdmit
  have := Nat.mod_lt (MyMath.nextRand seed) (show 10000000 > 0 by decide)
  simp only [decide_eq_true_eq, decide_eq_false_iff_not]
  omega

/-- C41: the abridged policy used in the cache model gives the same answers as the code. -/
theorem C41_model_agrees : ∀ (ids : List Nat) (t : GTable) (seen : List Nat), (∀ k, lookup t k ≠ 0 ↔ k ∈ seen) →
    (∀ k, lookup t k + ids.length < 2 ^ 31) → ∀ (rs : List Req), rs.map (·.id) = ids →
    ∃ t', bloomRun t ids = .ok ((rs.foldl (fun (p : List Bool × Adm) r => (p.1 ++ [(p.2.admit r).1], (p.2.admit r).2)) ([], Adm.bloom seen)).1, t') := by
  have gen : ∀ (ids : List Nat) (t : GTable) (seen : List Nat) (acc : List Bool), (∀ k, lookup t k ≠ 0 ↔ k ∈ seen) →
      (∀ k, lookup t k + ids.length < 2 ^ 31) → ∀ (rs : List Req), rs.map (·.id) = ids →
      ∃ as t', bloomRun t ids = .ok (as, t') ∧
        (rs.foldl (fun (p : List Bool × Adm) r => (p.1 ++ [(p.2.admit r).1], (p.2.admit r).2)) (acc, Adm.bloom seen)).1 = acc ++ as := by
    intro ids
    induction ids with
    | nil =>
      intro t seen acc _ _ rs hrs
      have : rs = [] := by simpa using hrs
      subst this
      exact ⟨[], t, rfl, by simp⟩
    | cons id ids ih =>
      intro t seen acc hs hb rs hrs
      cases rs with
      | nil => simp at hrs
      | cons r rs =>
        simp only [List.map_cons, List.cons.injEq] at hrs
        obtain ⟨h1, h2⟩ := hrs
        have hbid := hb id
        simp only [List.length_cons] at hbid
        by_cases h0 : lookup t id = 0
        · have hn : id ∉ seen := fun hm => (hs id).2 hm h0
          have ha : Adm.admit (.bloom seen) r = (false, .bloom (gintToPointer id :: seen)) := by
            simp [Adm.admit, h1, hn]
          obtain ⟨as, t', e, f⟩ := ih (Admission.insert t (gintToPointer id) 1) (gintToPointer id :: seen) (acc ++ [false])
            (by intro k; rw [lookup_insert]; by_cases e : gintToPointer id = k
                · simp [e]
                · simp only [if_neg e, List.mem_cons, hs k]; constructor
                  · exact Or.inr
                  · rintro (rfl | h); exacts [absurd rfl e, h])
            (by intro k; rw [lookup_insert]; have := hb k; simp only [List.length_cons] at this; split <;> omega) rs h2
          refine ⟨false :: as, t', ?_, ?_⟩
          · rw [bloomRun, show bloomAdmit t id = .ok (false, Admission.insert t (gintToPointer id) 1) by
              unfold bloomAdmit gsizeToPointer; simp [h0]]
            simp [e]
          · rw [List.foldl_cons, ha, f]; simp
        · have hn : id ∈ seen := (hs id).1 h0
          have ha : Adm.admit (.bloom seen) r = (true, .bloom (gintToPointer id :: seen)) := by
            simp [Adm.admit, h1, hn]
          have hsm : lookup t id + 1 < 2147483648 := by omega
          obtain ⟨as, t', e, f⟩ := ih (Admission.insert t (gintToPointer id) (lookup t id + 1)) (gintToPointer id :: seen) (acc ++ [true])
            (by intro k; rw [lookup_insert]; by_cases e : gintToPointer id = k
                · simp [e]
                · simp only [if_neg e, List.mem_cons, hs k]; constructor
                  · exact Or.inr
                  · rintro (rfl | h); exacts [absurd rfl e, h])
            (by intro k; rw [lookup_insert]; have := hb k; simp only [List.length_cons] at this; split <;> omega) rs h2
          refine ⟨true :: as, t', ?_, ?_⟩
          · rw [bloomRun, show bloomAdmit t id = .ok (true, Admission.insert t (gintToPointer id) (lookup t id + 1)) by
              unfold bloomAdmit gsizeToPointer; simp [h0, hsm, gint_small hsm]]
            simp [e]
          · rw [List.foldl_cons, ha, f]; simp
  intro ids t seen hs hb rs hrs
  obtain ⟨as, t', e, f⟩ := gen ids t seen [] hs hb rs hrs
  exact ⟨t', by rw [e, f]; simp⟩

example : ∃ t', bloomRun [] [4, 2147483648, 4] = .ok
    (([⟨4, 1, -2⟩, ⟨2147483648, 1, -2⟩, ⟨4, 1, -2⟩].foldl (fun (p : List Bool × Adm) r => (p.1 ++ [(p.2.admit r).1], (p.2.admit r).2)) ([], Adm.bloom [])).1, t') :=
  C41_model_agrees _ [] [] (by simp [lookup]) (by intro k; simp [lookup]) _ rfl

end Verif.Props
