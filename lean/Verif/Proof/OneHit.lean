import Verif.Tools.OneHit
import Verif.Spec.OneHit
import Mathlib.Data.List.Nodup
/-!
# traceOneHit: helper lemmas
-/

namespace Verif.OneHit
open Verif Verif.Spec

theorem toFinset_snoc (p : List Nat) (x : Nat) : (p ++ [x]).toFinset = insert x p.toFinset := by
  ext y; simp [or_comm]

theorem count_snoc (p : List Nat) (x y : Nat) : (p ++ [x]).count y = p.count y + if x = y then 1 else 0 := by
  rw [List.count_append, List.count_singleton]; simp

theorem distinct_new {p : List Nat} {x : Nat} (h : x ∉ p) : distinct (p ++ [x]) = distinct p + 1 := by
  unfold distinct
  rw [toFinset_snoc, Finset.card_insert_of_notMem (by simpa using h)]

theorem distinct_old {p : List Nat} {x : Nat} (h : x ∈ p) : distinct (p ++ [x]) = distinct p := by
  unfold distinct
  rw [toFinset_snoc, Finset.insert_eq_of_mem (by simpa using h)]

theorem once_new {p : List Nat} {x : Nat} (h : x ∉ p) : once (p ++ [x]) = once p + 1 := by
  unfold once
  have e : ((p ++ [x]).toFinset.filter fun y => (p ++ [x]).count y = 1) = insert x (p.toFinset.filter fun y => p.count y = 1) := by
    ext y
    simp only [Finset.mem_filter, toFinset_snoc, Finset.mem_insert, count_snoc, List.mem_toFinset]
    by_cases hy : x = y
    · subst hy
      simp [List.count_eq_zero.2 h]
    · have hy' : y ≠ x := fun k => hy k.symm
      simp [hy, hy']
  rw [e, Finset.card_insert_of_notMem (by simp [h])]

theorem once_second {p : List Nat} {x : Nat} (h : p.count x = 1) : once (p ++ [x]) + 1 = once p := by
  unfold once
  have hx : x ∈ p := List.count_pos_iff.1 (by omega)
  have e : (p.toFinset.filter fun y => p.count y = 1) = insert x ((p ++ [x]).toFinset.filter fun y => (p ++ [x]).count y = 1) := by
    ext y
    simp only [Finset.mem_filter, toFinset_snoc, Finset.mem_insert, count_snoc, List.mem_toFinset]
    by_cases hy : x = y
    · subst hy
      simp [h, hx]
    · have hy' : y ≠ x := fun k => hy k.symm
      simp [hy, hy']
  rw [e, Finset.card_insert_of_notMem]
  simp [count_snoc, h]

theorem once_old {p : List Nat} {x : Nat} (h : 2 ≤ p.count x) : once (p ++ [x]) = once p := by
  unfold once
  congr 1
  have hx : x ∈ p := List.count_pos_iff.1 (by omega)
  ext y
  simp only [Finset.mem_filter, toFinset_snoc, Finset.mem_insert, count_snoc, List.mem_toFinset]
  by_cases hy : x = y
  · subst hy
    simp
    omega
  · have hy' : y ≠ x := fun k => hy k.symm
    simp [hy, hy']

theorem once_le (p : List Nat) : once p ≤ p.length :=
  (Finset.card_filter_le _ _).trans (List.toFinset_card_le p)

structure FreqOk (p : List Nat) (freq : List (Nat × Nat)) : Prop where
  nodup : (freq.map Prod.fst).Nodup
  keys : ∀ x, x ∈ freq.map Prod.fst ↔ x ∈ p
  vals : ∀ e ∈ freq, e.2 = p.count e.1

theorem FreqOk.length {p freq} (h : FreqOk p freq) : freq.length = distinct p := by
  have e : (freq.map Prod.fst).toFinset = p.toFinset := by ext x; simpa using h.keys x
  have := List.toFinset_card_of_nodup h.nodup
  rw [e, List.length_map] at this
  exact this.symm

theorem lookup_none : ∀ {freq : List (Nat × Nat)} {x}, lookup x freq = none ↔ x ∉ freq.map Prod.fst
  | [], x => by simp [lookup]
  | (k, f) :: l, x => by
    unfold lookup
    split
    · rename_i h; simp [h]
    · rename_i h
      rw [lookup_none, List.map_cons, List.mem_cons, not_or]
      exact ⟨fun k' => ⟨fun e => h e.symm, k'⟩, fun k' => k'.2⟩

theorem lookup_some : ∀ {freq : List (Nat × Nat)} {x f}, lookup x freq = some f → (x, f) ∈ freq
  | [], x, f, h => by simp [lookup] at h
  | (k, g) :: l, x, f, h => by
    unfold lookup at h
    split at h
    · rename_i hk
      simp only [Option.some.injEq] at h
      subst hk; subst h
      exact List.mem_cons_self
    · exact List.mem_cons_of_mem _ (lookup_some h)

theorem bump_keys (x : Nat) : ∀ freq : List (Nat × Nat), (bump x freq).map Prod.fst = freq.map Prod.fst
  | [] => rfl
  | (k, f) :: l => by
    unfold bump
    split
    · rfl
    · simp [bump_keys x l]

theorem bump_vals {x : Nat} : ∀ {freq : List (Nat × Nat)}, (freq.map Prod.fst).Nodup → ∀ e ∈ bump x freq, ∃ g, (e.1, g) ∈ freq ∧ e.2 = if e.1 = x then (g + 1) % 2 ^ 32 else g
  | [], _, e, he => by simp [bump] at he
  | (k, f) :: l, hn, e, he => by
    rw [List.map_cons] at hn
    obtain ⟨h1, h2⟩ := List.nodup_cons.1 hn
    unfold bump at he
    split at he
    · rename_i hk
      rcases List.mem_cons.1 he with rfl | he
      · exact ⟨f, List.mem_cons_self, by rw [if_pos hk]⟩
      · refine ⟨e.2, List.mem_cons_of_mem _ he, ?_⟩
        rw [if_neg]
        intro hx
        exact h1 (by rw [hk, ← hx]; exact List.mem_map.2 ⟨e, he, rfl⟩)
    · rename_i hk
      rcases List.mem_cons.1 he with rfl | he
      · exact ⟨f, List.mem_cons_self, by rw [if_neg hk]⟩
      · obtain ⟨g, h3, h4⟩ := bump_vals h2 e he
        exact ⟨g, List.mem_cons_of_mem _ h3, h4⟩

theorem count_spec {p : List Nat} {s : State} {x : Nat} (hf : FreqOk p s.freq) (ho : s.oneHit = once p) (hp : p.length + 1 < 2 ^ 32) :
    FreqOk (p ++ [x]) (count s x).freq ∧ (count s x).oneHit = once (p ++ [x]) ∧ (count s x).ratios = s.ratios ∧ (count s x).lastSize = s.lastSize := by
  unfold count
  have hol := once_le p
  cases hl : lookup x s.freq with
  | none =>
    have hx := lookup_none.1 hl
    have hxp : x ∉ p := fun h => hx ((hf.keys x).2 h)
    refine ⟨⟨?_, ?_, ?_⟩, ?_, rfl, rfl⟩
    · show ((s.freq ++ [(x, 1)]).map Prod.fst).Nodup
      rw [List.map_append]
      exact List.nodup_append.2 ⟨hf.nodup, by simp, fun a ha b hb hab => hx (by simp at hb; rw [← hb, ← hab]; exact ha)⟩
    · intro y
      show y ∈ (s.freq ++ [(x, 1)]).map Prod.fst ↔ _
      rw [List.map_append, List.mem_append, hf.keys y, List.mem_append]
      simp
    · intro e he
      rcases List.mem_append.1 (show e ∈ s.freq ++ [(x, 1)] from he) with he | he
      · have hne : x ≠ e.1 := fun h => hx (by rw [h]; exact List.mem_map_of_mem he)
        rw [count_snoc, if_neg hne, hf.vals e he]; rfl
      · rw [List.mem_singleton.1 he, count_snoc, List.count_eq_zero.2 hxp]; simp
    · show (s.oneHit + 1) % 2 ^ 64 = _
      rw [once_new hxp, ho, Nat.mod_eq_of_lt (by omega)]
  | some f =>
    have hx := lookup_some hl
    have hxp : x ∈ p := (hf.keys x).1 (List.mem_map_of_mem hx)
    have hfc : f = p.count x := hf.vals _ hx
    have hcl : p.count x ≤ p.length := List.count_le_length
    have hc0 : 0 < p.count x := List.count_pos_iff.2 hxp
    refine ⟨⟨?_, ?_, ?_⟩, ?_, rfl, rfl⟩
    · show ((bump x s.freq).map Prod.fst).Nodup
      rw [bump_keys]; exact hf.nodup
    · intro y
      show y ∈ (bump x s.freq).map Prod.fst ↔ _
      rw [bump_keys, hf.keys y, List.mem_append, List.mem_singleton]
      exact ⟨Or.inl, fun h => h.elim id fun h => h ▸ hxp⟩
    · intro e he
      obtain ⟨g, h1, h2⟩ := bump_vals hf.nodup e he
      have hg : g = p.count e.1 := hf.vals _ h1
      have hgl : p.count e.1 ≤ p.length := List.count_le_length
      rw [h2, count_snoc]
      by_cases hex : e.1 = x
      · rw [if_pos hex, if_pos hex.symm, Nat.mod_eq_of_lt (by omega), hg]
      · rw [if_neg hex, if_neg (fun h => hex h.symm), hg]; rfl
    · show (if (f + 1) % 2 ^ 32 = 2 then (s.oneHit + 2 ^ 64 - 1) % 2 ^ 64 else s.oneHit) = _
      rw [Nat.mod_eq_of_lt (by omega)]
      split
      · have := once_second (p := p) (x := x) (by omega)
        omega
      · rw [once_old (by omega), ho]

structure Inv (p : List Nat) (s : State) : Prop where
  freq : FreqOk p s.freq
  once : s.oneHit = once p
  last : s.lastSize = 100 * (distinct p / 100)
  len : s.ratios.length = distinct p / 100
  vals : ∀ j, j < s.ratios.length → ∃ q x, q ++ [x] <+: p ∧ x ∉ q ∧ distinct (q ++ [x]) = 100 * (j + 1) ∧ s.ratios[j]? = some (Spec.once (q ++ [x]), 100 * (j + 1))

theorem inv_init : Inv [] init := ⟨⟨by simp [init], by simp [init], by simp [init]⟩, rfl, rfl, rfl, by simp [init]⟩

theorem inv_step {p : List Nat} {s : State} (h : Inv p s) (x : Nat) (hp : p.length + 1 < 2 ^ 32) : ∃ s', record (count s x) = .ok s' ∧ Inv (p ++ [x]) s' := by
  obtain ⟨h1, h2, h3, h4⟩ := count_spec (x := x) h.freq h.once hp
  generalize count s x = t at h1 h2 h3 h4
  have hl := h1.length
  have hvals : ∀ j, j < t.ratios.length → ∃ q y, q ++ [y] <+: p ++ [x] ∧ y ∉ q ∧ distinct (q ++ [y]) = 100 * (j + 1) ∧ t.ratios[j]? = some (Spec.once (q ++ [y]), 100 * (j + 1)) := fun j hj => by
    rw [h3] at hj ⊢
    obtain ⟨q, y, a, b⟩ := h.vals j hj
    exact ⟨q, y, a.trans (List.prefix_append _ _), b⟩
  have hlast := h.last
  have hlen := h.len
  unfold record
  by_cases hx : x ∈ p
  · rw [distinct_old hx] at hl
    rw [if_neg (by rw [hl, h4, hlast]; omega)]
    exact ⟨t, rfl, h1, h2, by rw [h4, hlast, distinct_old hx], by rw [h3, hlen, distinct_old hx], hvals⟩
  · have hd := distinct_new hx
    by_cases hm : distinct (p ++ [x]) % 100 = 0
    · rw [if_pos (by rw [hl, h4, hlast]; omega), if_neg (by rw [hl, h3, hlen]; omega)]
      refine ⟨_, rfl, h1, h2, ?_, ?_, ?_⟩
      · show t.freq.length = _
        omega
      · show (t.ratios ++ [_]).length = _
        rw [List.length_append, h3, hlen]
        simp only [List.length_singleton]
        omega
      · intro j hj
        by_cases hjl : j < t.ratios.length
        · obtain ⟨q, y, a, b, c, d⟩ := hvals j hjl
          exact ⟨q, y, a, b, c, (List.getElem?_append_left hjl).trans d⟩
        · have hj' : j = t.ratios.length := by
            have : (t.ratios ++ [(t.oneHit, t.freq.length)]).length = t.ratios.length + 1 := by simp
            have hj2 : j < (t.ratios ++ [(t.oneHit, t.freq.length)]).length := hj
            omega
          have e : distinct (p ++ [x]) = 100 * (j + 1) := by rw [hj', h3, hlen]; omega
          refine ⟨p, x, List.prefix_refl _, hx, e, ?_⟩
          show (t.ratios ++ [(t.oneHit, t.freq.length)])[j]? = _
          rw [hj', List.getElem?_append_right (Nat.le_refl _), Nat.sub_self, ← hj', h2, hl, e]
          rfl
    · rw [if_neg (by rw [hl]; exact fun k => hm k.1)]
      exact ⟨t, rfl, h1, h2, by rw [h4, hlast]; omega, by rw [h3, hlen]; omega, hvals⟩

theorem inv_loop : ∀ (rest p : List Nat) (s : State), Inv p s → p.length + rest.length < 2 ^ 32 → ∃ s', loop s rest = .ok s' ∧ Inv (p ++ rest) s'
  | [], p, s, h, _ => ⟨s, rfl, by rw [List.append_nil]; exact h⟩
  | x :: rest, p, s, h, hl => by
    rw [List.length_cons] at hl
    obtain ⟨s1, h1, h2⟩ := inv_step h x (by omega)
    obtain ⟨s2, h3, h4⟩ := inv_loop rest (p ++ [x]) s1 h2 (by rw [List.length_append, List.length_singleton]; omega)
    refine ⟨s2, ?_, by rw [List.append_assoc] at h4; exact h4⟩
    unfold loop
    rw [h1]
    exact h3

end Verif.OneHit
