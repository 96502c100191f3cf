import Verif.Spec.Optimal
import Mathlib.Data.Finset.Basic
import Mathlib.Order.Monotone.Basic
import Mathlib.Data.Int.Order.Basic
/-!
# Furthest-in-the-future is optimal: the counting argument

For a time `τ`, compare how many of its objects each cache will use by `τ`.  The other cache's lead, in misses, always
covers its advantage in this count.
-/

namespace Verif
open Spec

/-- how many objects of `c` have a next use by `τ` -/
def cnt (f : ObjId → Int) (τ : Int) (c : Finset ObjId) : Nat := (c.filter (fun y => f y ≤ τ)).card

theorem cnt_le_card (f τ c) : cnt f τ c ≤ c.card := Finset.card_filter_le _ _

theorem cnt_mono {f τ} {c c' : Finset ObjId} (h : c ⊆ c') : cnt f τ c ≤ cnt f τ c' :=
  Finset.card_le_card (Finset.filter_subset_filter _ h)

theorem cnt_insert {f τ} {c : Finset ObjId} {x} (h : x ∉ c) : cnt f τ (insert x c) = (if f x ≤ τ then 1 else 0) + cnt f τ c := by
  unfold cnt
  rw [Finset.filter_insert]
  split
  · rw [Finset.card_insert_of_notMem (by simp [h])]; omega
  · omega

theorem cnt_erase {f τ} {c : Finset ObjId} {x} (h : x ∈ c) : cnt f τ c = (if f x ≤ τ then 1 else 0) + cnt f τ (c.erase x) := by
  conv_lhs => rw [← Finset.insert_erase h]
  exact cnt_insert (by simp)

theorem cnt_congr {f g : ObjId → Int} {τ} {c : Finset ObjId} (h : ∀ y ∈ c, f y = g y) : cnt f τ c = cnt g τ c := by
  unfold cnt
  congr 1
  apply Finset.filter_congr
  intro y hy
  rw [h y hy]

theorem cnt_all {f τ} {c : Finset ObjId} (h : ∀ y ∈ c, f y ≤ τ) : cnt f τ c = c.card := by
  unfold cnt
  rw [Finset.filter_true_of_mem h]

/-- One request `x` at time `now`; `f`, `g` are the next uses before and after it. -/
theorem gap_step {k : Nat} {d : Int} {B B' C C' : Finset ObjId} {f g : ObjId → Int} {x : ObjId} {now : Int}
    (hx : f x = now) (hfg : ∀ y, y ≠ x → f y = g y) (hgt : ∀ y, now < g y)
    (hC : C.card ≤ k) (hC' : C'.card ≤ k) (hsub : C' ⊆ insert x C) (hmiss : x ∉ C → x ∈ C')
    (hB : B' = insert x B ∨ (x ∉ B ∧ B.card = k ∧ ∃ v ∈ B, (∀ y ∈ B, f y ≤ f v) ∧ B' = insert x (B.erase v)))
    (hd : 0 ≤ d) (hI : ∀ τ, now ≤ τ → (cnt f τ C : Int) - cnt f τ B ≤ d) :
    0 ≤ d + (if x ∈ C then 0 else 1) - (if x ∈ B then 0 else 1) ∧
    ∀ τ, now < τ → (cnt g τ C' : Int) - cnt g τ B' ≤ d + (if x ∈ C then 0 else 1) - (if x ∈ B then 0 else 1) := by
  have hfgE : ∀ (D : Finset ObjId) τ, cnt f τ (D.erase x) = cnt g τ (D.erase x) := fun D τ =>
    cnt_congr (fun y hy => hfg y (Finset.ne_of_mem_erase hy))
  have hfgN : ∀ (D : Finset ObjId) τ, x ∉ D → cnt f τ D = cnt g τ D := fun D τ h =>
    cnt_congr (fun y hy => hfg y (by rintro rfl; exact h hy))
  -- the lead covers a miss on an object the other cache has
  have hlead : x ∈ C → x ∉ B → 1 ≤ d := by
    intro h1 h2
    have := hI now (le_refl _)
    have e1 := cnt_erase (f := f) (τ := now) h1
    rw [if_pos (le_of_eq hx)] at e1
    have e2 : cnt f now B = 0 := by
      unfold cnt
      rw [Finset.card_eq_zero, Finset.filter_eq_empty_iff]
      intro y hy hle
      have : y ≠ x := by rintro rfl; exact h2 hy
      rw [hfg y this] at hle
      exact absurd (hgt y) (not_lt.2 hle)
    rw [e1, e2] at this
    push_cast at this
    omega
  have h0 : 0 ≤ d + (if x ∈ C then 0 else 1) - (if x ∈ B then 0 else 1) := by
    by_cases h1 : x ∈ C <;> by_cases h2 : x ∈ B <;> simp only [h1, h2, if_true, if_false]
    · omega
    · have := hlead h1 h2; omega
    · omega
    · omega
  refine ⟨h0, ?_⟩
  intro τ hτ
  have hIτ := hI τ hτ.le
  have hxτ : f x ≤ τ := by rw [hx]; exact hτ.le
  -- the other cache
  have hc' : cnt g τ C' ≤ (if g x ≤ τ then 1 else 0) + cnt g τ (C.erase x) := by
    have h1 : cnt g τ C' ≤ cnt g τ (insert x (C.erase x)) := by
      apply cnt_mono
      intro y hy
      rcases Finset.mem_insert.1 (hsub hy) with rfl | hy
      · simp
      · by_cases e : y = x
        · simp [e]
        · simp [e, hy]
    rw [cnt_insert (by simp)] at h1
    exact h1
  have hcC : cnt f τ C = (if x ∈ C then 1 else 0) + cnt g τ (C.erase x) := by
    by_cases h : x ∈ C
    · rw [cnt_erase h, if_pos hxτ, if_pos h, hfgE]
    · rw [if_neg h, Finset.erase_eq_of_notMem h, hfgN C τ h]; omega
  have hcB : cnt f τ B = (if x ∈ B then 1 else 0) + cnt g τ (B.erase x) := by
    by_cases h : x ∈ B
    · rw [cnt_erase h, if_pos hxτ, if_pos h, hfgE]
    · rw [if_neg h, Finset.erase_eq_of_notMem h, hfgN B τ h]; omega
  rcases hB with rfl | ⟨hxB, hk, v, hv, hmax, rfl⟩
  · have hb' : cnt g τ (insert x B) = (if g x ≤ τ then 1 else 0) + cnt g τ (B.erase x) := by
      have : insert x B = insert x (B.erase x) := by
        ext y
        by_cases e : y = x <;> simp [e]
      rw [this, cnt_insert (by simp)]
    rw [hb']
    rw [hcC, hcB] at hIτ
    push_cast at hIτ ⊢
    by_cases h1 : x ∈ C <;> by_cases h2 : x ∈ B <;> simp only [h1, h2, if_true, if_false] at hIτ ⊢ <;> omega
  · have hvx : v ≠ x := by rintro rfl; exact hxB hv
    have hb' : cnt g τ (insert x (B.erase v)) = (if g x ≤ τ then 1 else 0) + cnt g τ (B.erase v) := cnt_insert (by simp [hxB])
    have hbv : cnt g τ B = (if g v ≤ τ then 1 else 0) + cnt g τ (B.erase v) := cnt_erase hv
    have hBe : B.erase x = B := Finset.erase_eq_of_notMem hxB
    rw [hBe] at hcB
    rw [hcC, hcB] at hIτ
    simp only [hxB, if_false] at hIτ h0 ⊢
    rw [hb']
    by_cases hgv : g v ≤ τ
    · -- everything in the cache is used by `τ`
      have hall : cnt g τ B = B.card := by
        apply cnt_all
        intro y hy
        have hyx : y ≠ x := by rintro rfl; exact hxB hy
        have := hmax y hy
        rw [hfg y hyx, hfg v hvx] at this
        exact this.trans hgv
      rw [if_pos hgv, hall, hk] at hbv
      have hle : (cnt g τ C' : Int) ≤ (if g x ≤ τ then 1 else 0) + ((k : Int) - 1) := by
        have hk1 : 1 ≤ k := by rw [← hk]; exact Finset.card_pos.2 ⟨v, hv⟩
        by_cases hgx : g x ≤ τ
        · have := cnt_le_card g τ C'
          simp only [hgx, if_true]; omega
        · simp only [hgx, if_false] at hc' ⊢
          by_cases h1 : x ∈ C
          · have h3 := cnt_le_card g τ (C.erase x)
            rw [Finset.card_erase_of_mem h1] at h3
            omega
          · have hx' := hmiss h1
            have e := cnt_erase (f := g) (τ := τ) hx'
            rw [if_neg hgx] at e
            have h3 := cnt_le_card g τ (C'.erase x)
            rw [Finset.card_erase_of_mem hx'] at h3
            omega
      by_cases hgx : g x ≤ τ <;> simp only [hgx, if_true, if_false] at hle ⊢ <;> push_cast <;> omega
    · rw [if_neg hgv] at hbv
      by_cases h1 : x ∈ C <;> by_cases hgx : g x ≤ τ <;> simp only [h1, hgx, if_true, if_false] at hIτ hc' ⊢ <;> push_cast at hIτ ⊢ <;> omega

end Verif
