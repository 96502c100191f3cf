import Verif.Spec.Segments
import Verif.Base.Contract
/-!
# Facts about settling segments
-/

namespace Verif.Spec.Segmented
open Verif Spec

theorem put_self (a : Segs) (k : Nat) (c : Contents) : put a k c k = c := by simp [put]
theorem put_ne (a : Segs) {j k : Nat} (h : j ≠ k) (c : Contents) : put a k c j = a j := by simp [put, h]
theorem put_same (a : Segs) (k : Nat) : put a k (a k) = a := by
  funext j; by_cases h : j = k <;> simp [put, h]
theorem put_put (a : Segs) (k : Nat) (c d : Contents) : put (put a k c) k d = put a k d := by
  funext j; by_cases h : j = k <;> simp [put, h]
theorem put_comm (a : Segs) {j k : Nat} (h : j ≠ k) (c d : Contents) : put (put a j c) k d = put (put a k d) j c := by
  funext i; simp only [put]; split <;> split <;> simp_all

theorem keep_spill (r : Nat) (c : Contents) : keep r c ++ spill r c = c := by
  have : keep r c = c.take (keep r c).length := by
    induction c generalizing r with
    | nil => rfl
    | cons x c ih =>
      simp only [keep]
      split
      · simp only [List.length_cons, List.take_succ_cons]; rw [← ih]
      · rfl
  rw [spill]
  conv => lhs; lhs; rw [this]
  exact List.take_append_drop _ _

theorem keep_charge (r : Nat) (c : Contents) : charge 0 (keep r c) ≤ r := by
  induction c generalizing r with
  | nil => simp [keep, charge]
  | cons x c ih =>
    simp only [keep]
    split
    · have := ih (r - x.2); simp only [charge]; omega
    · simp [charge]

theorem keep_all {r : Nat} {c : Contents} (h : charge 0 c ≤ r) : keep r c = c := by
  induction c generalizing r with
  | nil => rfl
  | cons x c ih =>
    simp only [charge] at h
    rw [keep, if_pos (by omega), ih (by omega)]

theorem spill_nil_iff {r : Nat} {c : Contents} : spill r c = [] ↔ charge 0 c ≤ r := by
  constructor
  · intro h
    have := keep_spill r c
    rw [h, List.append_nil] at this
    rw [← this]; exact keep_charge r c
  · intro h; rw [spill, keep_all h]; simp

theorem keep_keep {r r' : Nat} (h : r' ≤ r) (c : Contents) : keep r' (keep r c) = keep r' c := by
  induction c generalizing r r' with
  | nil => rfl
  | cons x c ih =>
    by_cases hx : x.2 ≤ r
    · rw [keep, if_pos hx]
      by_cases hx' : x.2 ≤ r'
      · rw [keep, if_pos hx', keep, if_pos hx', ih (by omega)]
      · rw [keep, if_neg hx', keep, if_neg hx']
    · rw [keep, if_neg hx, keep, keep, if_neg (by omega)]

theorem keep_append_keep {r r' : Nat} (h : r' ≤ r) (o c : Contents) : keep r' (o ++ keep r c) = keep r' (o ++ c) := by
  induction o generalizing r' with
  | nil => exact keep_keep h c
  | cons y o ih =>
    simp only [List.cons_append, keep]
    split
    · rw [ih (by omega)]
    · rfl

theorem spill_append_keep (r : Nat) (o c : Contents) : spill r (o ++ c) = spill r (o ++ keep r c) ++ spill r c := by
  have h1 := keep_append_keep (Nat.le_refl r) o c
  have hle : (keep r (o ++ keep r c)).length ≤ (o ++ keep r c).length := by
    have := congrArg List.length (keep_spill r (o ++ keep r c))
    simp only [List.length_append] at this ⊢; omega
  have h2 : o ++ c = (o ++ keep r c) ++ spill r c := by rw [List.append_assoc, keep_spill]
  conv => lhs; rw [spill, ← h1, h2]
  rw [List.drop_append_of_le_length hle]; rfl

theorem keep_snoc {r : Nat} {c : Contents} {x : ObjId × Nat} (h : r < charge 0 (c ++ [x])) : keep r (c ++ [x]) = keep r c := by
  induction c generalizing r with
  | nil => simp only [List.nil_append, charge] at h; simp only [List.nil_append, keep]; rw [if_neg (by omega)]
  | cons y c ih =>
    simp only [List.cons_append, charge] at h
    simp only [List.cons_append, keep]
    split
    · rw [ih (by omega)]
    · rfl

theorem spill_snoc {r : Nat} {c : Contents} {x : ObjId × Nat} (h : r < charge 0 (c ++ [x])) : spill r (c ++ [x]) = spill r c ++ [x] := by
  have hle : (keep r c).length ≤ c.length := by
    have := congrArg List.length (keep_spill r c)
    simp only [List.length_append] at this; omega
  rw [spill, keep_snoc h, List.drop_append_of_le_length hle]; rfl

section
variable {lim : Nat → Nat}

theorem settle_above {k j : Nat} (h : k < j) (a : Segs) : settle lim k a j = a j := by
  induction k generalizing a with
  | zero => rw [settle, put_ne _ (by omega)]
  | succ k ih =>
    simp only [settle]
    split
    · rw [put_ne _ (by omega)]
    · rw [ih (by omega), put_ne _ (by omega), put_ne _ (by omega)]

theorem settle_self (k : Nat) (a : Segs) : settle lim k a k = keep (lim k) (a k) := by
  cases k with
  | zero => rw [settle, put_self]
  | succ k =>
    simp only [settle]
    split
    · rw [put_self]
    · rw [settle_above (by omega), put_ne _ (by omega), put_self]

theorem settle_put {k j : Nat} (h : k < j) (a : Segs) (c : Contents) : settle lim k (put a j c) = put (settle lim k a) j c := by
  induction k generalizing a with
  | zero => rw [settle, settle, put_ne _ (by omega), put_comm _ (by omega)]
  | succ k ih =>
    have h1 : k + 1 ≠ j := by omega
    have h2 : k ≠ j := by omega
    simp only [settle, put_ne _ h1]
    split
    · rw [put_comm _ (by omega)]
    · rw [← ih (by omega)]
      congr 1
      rw [put_ne _ (show k ≠ k + 1 by omega), put_ne _ (show k ≠ k + 1 by omega), put_ne _ h2,
        put_comm a (show j ≠ k + 1 by omega), put_comm _ (show j ≠ k by omega)]

theorem settle_push (k : Nat) (a : Segs) (c d : Contents) :
    settle lim k (put (put a (k + 1) c) k d) = put (settle lim k (put a k d)) (k + 1) c := by
  rw [put_comm _ (show k + 1 ≠ k by omega), settle_put (Nat.lt_succ_self k)]

theorem settle_of_le {k : Nat} {a : Segs} (h : charge 0 (a k) ≤ lim k) : settle lim k a = a := by
  cases k with
  | zero => rw [settle, keep_all h, put_same]
  | succ k => simp only [settle]; rw [if_pos (spill_nil_iff.2 h), keep_all h, put_same]

/-- Settling in two rounds is settling once. -/
theorem settle_add (k : Nat) (b : Segs) (o : Contents) :
    settle lim k (put (settle lim k b) k (o ++ settle lim k b k)) = settle lim k (put b k (o ++ b k)) := by
  induction k generalizing b o with
  | zero =>
    rw [settle_self]
    simp only [settle, put_self, put_put]
    rw [keep_append_keep (Nat.le_refl _)]
  | succ k ih =>
    have hk : k ≠ k + 1 := by omega
    rw [settle_self]
    have hsp := spill_append_keep (lim (k + 1)) o (b (k + 1))
    have hke := keep_append_keep (Nat.le_refl (lim (k + 1))) o (b (k + 1))
    conv => rhs; simp only [settle, put_self, put_put]
    rw [hsp, put_ne _ hk]
    conv => lhs; rw [settle]; simp only [put_self, put_put]
    rw [hke, put_ne _ hk]
    by_cases h1 : spill (lim (k + 1)) (b (k + 1)) = []
    · have hs : settle lim (k + 1) b = put b (k + 1) (keep (lim (k + 1)) (b (k + 1))) := by
        simp only [settle]; rw [if_pos h1]
      rw [hs, h1, List.append_nil, put_put, put_ne _ hk]
    · have hs : settle lim (k + 1) b = put (settle lim k (put b k (spill (lim (k + 1)) (b (k + 1)) ++ b k))) (k + 1) (keep (lim (k + 1)) (b (k + 1))) := by
        simp only [settle]; rw [if_neg h1, put_ne _ hk, settle_push]
      rw [hs, put_put, put_ne _ hk]
      by_cases h2 : spill (lim (k + 1)) (o ++ keep (lim (k + 1)) (b (k + 1))) = []
      · rw [h2, if_pos rfl, List.nil_append, if_neg h1, settle_push]
      · rw [if_neg h2, if_neg (by simp [h2])]
        rw [settle_push, settle_push]
        congr 1
        have := ih (put b k (spill (lim (k + 1)) (b (k + 1)) ++ b k)) (spill (lim (k + 1)) (o ++ keep (lim (k + 1)) (b (k + 1))))
        rw [put_put, put_self] at this
        rw [this, List.append_assoc]

/-- One object moved down and the lower segments settled: the rest of the work is the same. -/
theorem settle_step {k : Nat} {a : Segs} {c : Contents} {x : ObjId × Nat} (h : a (k + 1) = c ++ [x])
    (ho : lim (k + 1) < charge 0 (a (k + 1))) :
    settle lim (k + 1) (settle lim k (put (put a (k + 1) c) k (x :: a k))) = settle lim (k + 1) a := by
  have hk : k ≠ k + 1 := by omega
  rw [h] at ho
  have e1 : settle lim k (put (put a (k + 1) c) k (x :: a k)) = put (settle lim k (put a k (x :: a k))) (k + 1) c := settle_push _ _ _ _
  rw [e1]
  conv => rhs; simp only [settle]
  rw [h, spill_snoc ho, keep_snoc ho, if_neg (by simp), put_ne _ hk, settle_push]
  conv => lhs; simp only [settle, put_self, put_put]
  by_cases h1 : spill (lim (k + 1)) c = []
  · rw [if_pos h1, h1]; rfl
  · rw [if_neg h1, put_ne _ hk, settle_push]
    congr 1
    have := settle_add (lim := lim) k (put a k (x :: a k)) (spill (lim (k + 1)) c)
    rw [put_put, put_self] at this
    rw [this, List.append_assoc]; rfl

theorem settle_step0 {a : Segs} {c : Contents} {x : ObjId × Nat} (h : a 0 = c ++ [x])
    (ho : lim 0 < charge 0 (a 0)) : settle lim 0 (put a 0 c) = settle lim 0 a := by
  rw [h] at ho
  simp only [settle, put_self, put_put]
  rw [h, keep_snoc ho]

/-- Settling brings segment `k` and the segments it spills into within their limits. -/
theorem settle_within {k : Nat} {a : Segs} (h : ∀ i, 1 ≤ i → i ≠ k → charge 0 (a i) ≤ lim i) :
    ∀ i, 1 ≤ i → charge 0 (settle lim k a i) ≤ lim i := by
  induction k generalizing a with
  | zero =>
    intro i hi
    rw [settle, put_ne _ (by omega)]; exact h i hi (by omega)
  | succ k ih =>
    intro i hi
    by_cases e : i = k + 1
    · subst e; rw [settle_self]; exact keep_charge _ _
    · simp only [settle]
      split
      · rw [put_ne _ e]; exact h i hi e
      · apply ih _ i hi
        intro j hj hjk
        rw [put_ne _ hjk]
        by_cases ej : j = k + 1
        · subst ej; rw [put_self]; exact keep_charge _ _
        · rw [put_ne _ ej]; exact h j hj ej

/-- The most recent object of the settled segment stays, if it fits in the lowest segment: it is the most recent object of a
segment within its limit. -/
theorem settle_head {k : Nat} {a : Segs} {x : ObjId × Nat} {c : Contents} (h : a k = x :: c) (hx : x.2 ≤ lim 0) :
    ∃ j c', j ≤ k ∧ settle lim k a j = x :: c' ∧ charge 0 (settle lim k a j) ≤ lim j := by
  induction k generalizing a c with
  | zero =>
    refine ⟨0, keep (lim 0 - x.2) c, Nat.le_refl _, ?_, ?_⟩
    · rw [settle_self, h, keep, if_pos hx]
    · rw [settle_self]; exact keep_charge _ _
  | succ k ih =>
    by_cases hf : x.2 ≤ lim (k + 1)
    · refine ⟨k + 1, keep (lim (k + 1) - x.2) c, Nat.le_refl _, ?_, ?_⟩
      · rw [settle_self, h, keep, if_pos hf]
      · rw [settle_self]; exact keep_charge _ _
    · have hs : spill (lim (k + 1)) (a (k + 1)) = x :: c := by rw [h, spill, keep, if_neg hf]; rfl
      simp only [settle]
      rw [hs, if_neg (by simp)]
      obtain ⟨j, c', hj, h1, h2⟩ := ih (a := put (put a (k + 1) (keep (lim (k + 1)) (a (k + 1)))) k (x :: c ++ put a (k + 1) (keep (lim (k + 1)) (a (k + 1))) k))
        (c := c ++ put a (k + 1) (keep (lim (k + 1)) (a (k + 1))) k) (by rw [put_self]; rfl)
      exact ⟨j, c', by omega, h1, h2⟩

end
end Verif.Spec.Segmented
