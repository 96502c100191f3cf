import Verif.Example.ConsistentHash
import Mathlib.Tactic.ByContra
import Mathlib.Data.List.Perm.Basic
import Mathlib.Data.List.Dedup
import Mathlib.Data.List.Rotate
import Mathlib.Data.List.Induction
import Mathlib.Algebra.BigOperators.Group.List.Basic
/-!
# Consistent hashing: helper lemmas
-/

namespace Verif.CHash
open Verif Verif.Spec

/-- The ring holds exactly the sorted points `L`. -/
structure Full (r : Ring) (L : List Point) : Prop where
  read : ∀ i (hi : i < L.length), r.vnode i = .ok L[i]
  len : r.nPoint = L.length
  sorted : L.Pairwise fun v w => v.point ≤ w.point

def Good (L : List Point) (h i : Nat) : Prop :=
  ∃ hi : i < L.length, (h ≤ L[i].point ∧ ∀ j (hj : j < i), L[j].point < h) ∨ (i = 0 ∧ ∀ j (hj : j < L.length), L[j].point < h)

theorem search_good {r : Ring} {L : List Point} (hf : Full r L) (hpos : 0 < L.length) (h : Nat) : ∀ (n : Nat) (low high : Int), 0 ≤ low → low ≤ high → high ≤ L.length → high - low < n →
    (∀ j (hj : j < L.length), (j : Int) < low → L[j].point < h) → (∀ j (hj : j < L.length), high ≤ (j : Int) → h ≤ L[j].point) →
    ∃ i, search r h n low high = .ok i ∧ Good L h i
  | 0, low, high, _, _, _, hn, _, _ => by omega
  | n + 1, low, high, h0, hlh, hhl, hn, hlo, hhi => by
    have hmid : 0 ≤ (low + high) / 2 := by omega
    obtain ⟨mid, hm⟩ : ∃ mid : Nat, (low + high) / 2 = mid := ⟨((low + high) / 2).toNat, by omega⟩
    have e : ((low + high) / 2).toNat = mid := by omega
    unfold search
    simp only [e]
    by_cases hend : mid = r.nPoint
    · rw [if_pos hend]
      rw [hf.len] at hend
      exact ⟨0, rfl, hpos, Or.inr ⟨rfl, fun j hj => hlo j hj (by omega)⟩⟩
    · rw [if_neg hend]
      rw [hf.len] at hend
      have hml : mid < L.length := by omega
      rw [hf.read mid hml]
      have hb : ∃ b, r.before mid = .ok b ∧ (mid = 0 → b = 0) ∧ ∀ hm' : 0 < mid, b = (L[mid - 1]'(by omega)).point := by
        by_cases h0' : mid = 0
        · exact ⟨0, by simp [Ring.before, h0'], fun _ => rfl, fun h' => by omega⟩
        · refine ⟨(L[mid - 1]'(by omega)).point, ?_, fun h' => absurd h' h0', fun _ => rfl⟩
          rw [Ring.before, if_neg h0', hf.read (mid - 1) (by omega)]
          rfl
      obtain ⟨b, hb1, hb2, hb3⟩ := hb
      simp only [Res.bind_ok, hb1]
      have hsort : ∀ i j (hi : i < L.length) (hj : j < L.length), i ≤ j → L[i].point ≤ L[j].point := by
        intro i j hi hj hij
        rcases Nat.lt_or_eq_of_le hij with hl | rfl
        · exact List.pairwise_iff_getElem.1 hf.sorted i j hi hj hl
        · exact Nat.le_refl _
      by_cases hfound : h ≤ L[mid].point ∧ b < h
      · rw [if_pos hfound]
        refine ⟨mid, rfl, hml, Or.inl ⟨hfound.1, fun j hj => ?_⟩⟩
        have := hb3 (by omega)
        have h1 := hsort j (mid - 1) (by omega) (by omega) (by omega)
        omega
      · rw [if_neg hfound]
        by_cases hlt : L[mid].point < h
        · rw [if_pos hlt]
          have hmh : (mid : Int) < high := by
            by_contra hc
            have := hhi mid hml (by omega)
            omega
          rw [if_neg (by omega)]
          exact search_good hf hpos h n (mid + 1) high (by omega) (by omega) hhl (by omega)
            (fun j hj hjm => by
              have := hsort j mid hj hml (by omega)
              omega) hhi
        · rw [if_neg hlt]
          have hbh : h ≤ b := by omega
          by_cases hz : mid = 0
          · have : h = 0 := by have := hb2 hz; omega
            rw [if_pos (by omega)]
            exact ⟨0, rfl, hpos, Or.inl ⟨by omega, fun j hj => by omega⟩⟩
          · have hbe := hb3 (by omega)
            have hlow : low ≤ (mid : Int) - 1 := by
              by_contra hc
              have := hlo (mid - 1) (by omega) (by omega)
              omega
            rw [if_neg (by omega)]
            exact search_good hf hpos h n low (mid - 1) h0 hlow (by omega) (by omega) hlo
              (fun j hj hjm => by
                have := hsort (mid - 1) j (by omega) hj (by omega)
                omega)

theorem vnodeIdx_good {md5 : Md5} {r : Ring} {L : List Point} (hf : Full r L) (hpos : 0 < L.length) (key : List Nat) : ∃ i, vnodeIdx md5 r key = .ok i ∧ Good L (hash md5 key) i := by
  unfold vnodeIdx
  have := hf.len
  exact search_good hf hpos _ _ 0 _ (by omega) (by omega) (by omega) (by omega) (fun j hj hlt => by omega) (fun j hj hle => by omega)

theorem Good.isNext {r : Ring} {L : List Point} (hf : Full r L) {h i : Nat} (hg : Good L h i) : ∃ hi : i < L.length, IsNext L h L[i] := by
  obtain ⟨hi, hg⟩ := hg
  have hsort : ∀ i j (hi : i < L.length) (hj : j < L.length), i ≤ j → L[i].point ≤ L[j].point := by
    intro i j hi hj hij
    rcases Nat.lt_or_eq_of_le hij with hl | rfl
    · exact List.pairwise_iff_getElem.1 hf.sorted i j hi hj hl
    · exact Nat.le_refl _
  refine ⟨hi, List.getElem_mem hi, ?_⟩
  rcases hg with ⟨h1, h2⟩ | ⟨h1, h2⟩
  · refine Or.inl ⟨h1, fun w hw hle => ?_⟩
    obtain ⟨j, hj, rfl⟩ := List.getElem_of_mem hw
    by_cases hji : j < i
    · have := h2 j hji
      omega
    · exact hsort i j hi hj (by omega)
  · subst h1
    refine Or.inr ⟨fun w hw => ?_, fun w hw => ?_⟩
    · obtain ⟨j, hj, rfl⟩ := List.getElem_of_mem hw
      exact h2 j hj
    · obtain ⟨j, hj, rfl⟩ := List.getElem_of_mem hw
      exact hsort 0 j hi hj (Nat.zero_le _)

theorem IsNext.perm {L M : List Point} (hp : L.Perm M) {h : Nat} {v : Point} (hn : IsNext L h v) : IsNext M h v := by
  obtain ⟨h1, h2⟩ := hn
  refine ⟨hp.mem_iff.1 h1, ?_⟩
  rcases h2 with ⟨a, b⟩ | ⟨a, b⟩
  · exact Or.inl ⟨a, fun w hw => b w (hp.mem_iff.2 hw)⟩
  · exact Or.inr ⟨fun w hw => a w (hp.mem_iff.2 hw), fun w hw => b w (hp.mem_iff.2 hw)⟩

theorem isNext_point_unique {L : List Point} {h : Nat} {v w : Point} (hv : IsNext L h v) (hw : IsNext L h w) : v.point = w.point := by
  obtain ⟨h1, h2⟩ := hv
  obtain ⟨h3, h4⟩ := hw
  rcases h2 with ⟨a, b⟩ | ⟨a, b⟩ <;> rcases h4 with ⟨c, d⟩ | ⟨c, d⟩
  · have := b w h3 c; have := d v h1 a; omega
  · have := c v h1; omega
  · have := a w h3; omega
  · have := b w h3; have := d v h1; omega

theorem owns_unique {L : List Point} (hc : NoCollision L) {h s t : Nat} (hs : Owns L h s) (ht : Owns L h t) : s = t := by
  obtain ⟨v, hv, rfl⟩ := hs
  obtain ⟨w, hw, rfl⟩ := ht
  exact hc v hv.1 w hw.1 (isNext_point_unique hv hw)

/-- Taking away points of other servers leaves a key where it is. -/
theorem owns_sublist {L M : List Point} (hsub : ∀ v ∈ M, v ∈ L) {h : Nat} {v : Point} (hn : IsNext L h v) (hm : v ∈ M) : IsNext M h v := by
  obtain ⟨h1, h2⟩ := hn
  refine ⟨hm, ?_⟩
  rcases h2 with ⟨a, b⟩ | ⟨a, b⟩
  · exact Or.inl ⟨a, fun w hw => b w (hsub w hw)⟩
  · exact Or.inr ⟨fun w hw => a w (hsub w hw), fun w hw => b w (hsub w hw)⟩

/-! ## The points of a ring -/

theorem serverPoints_length (md5 : Md5) (i ks : Nat) : (serverPoints md5 i ks).length = 4 * ks := by
  simp [serverPoints, List.length_flatMap]
  omega

theorem mem_points {md5 : Md5} {ks : List Nat} {v : Point} (hv : v ∈ points md5 ks) : v.server < ks.length ∧ v ∈ serverPoints md5 v.server (ks.getD v.server 0) := by
  simp only [points, List.mem_flatMap, List.mem_range] at hv
  obtain ⟨i, hi, hv⟩ := hv
  have : v.server = i := by
    simp only [serverPoints, List.mem_flatMap, List.mem_map] at hv
    obtain ⟨_, _, _, _, rfl⟩ := hv
    rfl
  rw [this]
  exact ⟨hi, hv⟩

theorem mem_points_iff {md5 : Md5} {ks : List Nat} {v : Point} : v ∈ points md5 ks ↔ v.server < ks.length ∧ v ∈ serverPoints md5 v.server (ks.getD v.server 0) := by
  refine ⟨mem_points, fun ⟨h1, h2⟩ => ?_⟩
  simp only [points, List.mem_flatMap, List.mem_range]
  exact ⟨_, h1, h2⟩

theorem points_snoc (md5 : Md5) (ks : List Nat) (k : Nat) : points md5 (ks ++ [k]) = points md5 ks ++ serverPoints md5 ks.length k := by
  unfold points
  rw [List.length_append, List.length_singleton, List.range_succ, List.flatMap_append]
  congr 1
  · apply List.flatMap_congr
    intro i hi
    have hi' := List.mem_range.1 hi
    simp [List.getD, List.getElem?_append_left hi']
  · simp

theorem points_length (md5 : Md5) : ∀ ks : List Nat, (points md5 ks).length = 4 * ks.sum := by
  intro ks
  induction ks using List.reverseRecOn with
  | nil => rfl
  | append_singleton l k ih =>
    rw [points_snoc, List.length_append, ih, serverPoints_length, List.sum_append]
    simp
    omega

theorem create_full {md5 : Md5} {qs : Qsort} {ks : List Nat} (hk : ks.sum = 40 * ks.length) :
    ∃ r, create md5 qs ks = .ok r ∧ Full r (qs.f (points md5 ks)) ∧ r.nServer = ks.length := by
  have hl := points_length md5 ks
  have hl' : (qs.f (points md5 ks)).length = (points md5 ks).length := (qs.perm _).length_eq
  refine ⟨_, by unfold create; rw [if_pos (by rw [hl, hk, perServer]; omega)], ⟨?_, ?_, qs.sorted _⟩, rfl⟩
  · intro i hi
    unfold Ring.vnode
    rw [List.getElem?_append_left (by simpa using hi)]
    simp [hi]
  · rw [hl', hl, hk, perServer]
    show ks.length * 160 = _
    omega

/-! ## Walking round the ring -/

theorem mem_firsts : ∀ (l : List Nat) (skip : Nat → Bool) (s : Nat), s ∈ firsts skip l ↔ s ∈ l ∧ skip s = false
  | [], _, _ => by simp [firsts]
  | x :: l, skip, s => by
    unfold firsts
    split
    · next hx =>
      rw [mem_firsts l skip s, List.mem_cons]
      constructor
      · exact fun ⟨a, b⟩ => ⟨Or.inr a, b⟩
      · rintro ⟨rfl | a, b⟩
        · rw [hx] at b; cases b
        · exact ⟨a, b⟩
    · next hx =>
      rw [List.mem_cons, mem_firsts l _ s, List.mem_cons]
      simp only [Bool.or_eq_false_iff, decide_eq_false_iff_not]
      constructor
      · rintro (rfl | ⟨a, b, c⟩)
        · exact ⟨Or.inl rfl, by simpa using hx⟩
        · exact ⟨Or.inr a, b⟩
      · rintro ⟨rfl | a, b⟩
        · exact Or.inl rfl
        · by_cases e : s = x
          · exact Or.inl e
          · exact Or.inr ⟨a, b, e⟩

theorem nodup_firsts : ∀ (l : List Nat) (skip : Nat → Bool), (firsts skip l).Nodup
  | [], _ => by simp [firsts]
  | x :: l, skip => by
    unfold firsts
    split
    · exact nodup_firsts l skip
    · refine List.nodup_cons.2 ⟨fun h => ?_, nodup_firsts l _⟩
      have := ((mem_firsts l _ x).1 h).2
      simp at this

theorem collect_spec {r : Ring} {L : List Point} (hf : Full r L) (hpos : 0 < L.length) (start : Nat) :
    ∀ (f pos : Nat) (chosen : List Bool) (left : Nat), (∀ v ∈ L, v.server < chosen.length) → pos ≤ L.length → L.length + 1 ≤ f + pos →
      collect r start f pos chosen left =
        (if left ≤ (firsts (fun s => chosen.getD s false) (((L.rotate start).drop pos).map Point.server)).length
         then .ok ((firsts (fun s => chosen.getD s false) (((L.rotate start).drop pos).map Point.server)).take left) else .error .abort)
  | f, pos, chosen, 0, _, _, _ => by
    simp [collect]
  | 0, pos, chosen, left + 1, _, hp, hn => by omega
  | f + 1, pos, chosen, left + 1, hc, hp, hn => by
    have hlt : (start + pos) % L.length < L.length := Nat.mod_lt _ hpos
    have hch : chosen[(L[(start + pos) % L.length]).server]? = some (chosen.getD (L[(start + pos) % L.length]).server false) := by
      have := hc _ (List.getElem_mem hlt)
      simp [List.getD, this]
    unfold collect
    rw [if_neg (by rw [hf.len]; omega), hf.len, hf.read _ hlt]
    simp only [Res.bind_ok, hch]
    by_cases hend : pos = L.length
    · have hd : (L.rotate start).drop pos = [] := List.drop_eq_nil_of_le (by simp [hend])
      rw [hd]
      simp [firsts, hend]
    · have hlt' : pos < L.length := by omega
      have hd : (L.rotate start).drop pos = L[(start + pos) % L.length] :: (L.rotate start).drop (pos + 1) := by
        rw [List.drop_eq_getElem_cons (by simpa using hlt')]
        congr 1
        rw [List.getElem_rotate]
        congr 1
        rw [Nat.add_comm]
      rw [hd]
      simp only [List.map_cons, firsts]
      by_cases hcb : chosen.getD (L[(start + pos) % L.length]).server false = true
      · simp only [hcb, if_true]
        rw [if_neg (by omega), collect_spec hf hpos start f (pos + 1) chosen (left + 1) hc (by omega) (by omega)]
      · have hcb' : chosen.getD (L[(start + pos) % L.length]).server false = false := by simpa using hcb
        have hset : (fun s => (chosen.set (L[(start + pos) % L.length]).server true).getD s false) =
            fun t => chosen.getD t false || decide (t = (L[(start + pos) % L.length]).server) := by
          funext t
          have := hc _ (List.getElem_mem hlt)
          by_cases e : t = (L[(start + pos) % L.length]).server
          · rw [e]; simp [List.getD, this]
          · simp [List.getD, e, List.getElem?_set_ne (Ne.symm e)]
        simp only [hcb', Bool.false_eq_true, if_false]
        rw [if_neg (by omega), collect_spec hf hpos start f (pos + 1) _ left (by simpa using hc) (by omega) (by omega), hset]
        simp only [List.length_cons, Nat.add_le_add_iff_right]
        split <;> simp

theorem Good.clockwise {r : Ring} {L : List Point} (hf : Full r L) {h i : Nat} (hg : Good L h i) :
    L.rotate i = (L.filter fun v => h ≤ v.point) ++ L.filter fun v => v.point < h := by
  obtain ⟨hi, hg⟩ := hg
  have hsort : ∀ i j (hi : i < L.length) (hj : j < L.length), i ≤ j → L[i].point ≤ L[j].point := by
    intro i j hi hj hij
    rcases Nat.lt_or_eq_of_le hij with hl | rfl
    · exact List.pairwise_iff_getElem.1 hf.sorted i j hi hj hl
    · exact Nat.le_refl _
  rcases hg with ⟨h1, h2⟩ | ⟨rfl, h2⟩
  · have ht : ∀ v ∈ L.take i, v.point < h := by
      intro v hv
      obtain ⟨j, hj, rfl⟩ := List.getElem_of_mem hv
      simp only [List.length_take] at hj
      rw [List.getElem_take]
      exact h2 j (by omega)
    have hd : ∀ v ∈ L.drop i, h ≤ v.point := by
      intro v hv
      obtain ⟨j, hj, rfl⟩ := List.getElem_of_mem hv
      simp only [List.length_drop] at hj
      rw [List.getElem_drop]
      exact h1.trans (hsort i (i + j) hi (by omega) (by omega))
    rw [List.rotate_eq_drop_append_take (by omega)]
    conv_rhs => rw [← List.take_append_drop i L]
    rw [List.filter_append, List.filter_append]
    have a1 : (L.take i).filter (fun v => decide (h ≤ v.point)) = [] := List.filter_eq_nil_iff.2 fun v hv => by simpa using ht v hv
    have a2 : (L.drop i).filter (fun v => decide (h ≤ v.point)) = L.drop i := List.filter_eq_self.2 fun v hv => by simpa using hd v hv
    have a3 : (L.take i).filter (fun v => decide (v.point < h)) = L.take i := List.filter_eq_self.2 fun v hv => by simpa using ht v hv
    have a4 : (L.drop i).filter (fun v => decide (v.point < h)) = [] := List.filter_eq_nil_iff.2 fun v hv => by simpa using hd v hv
    rw [a1, a2, a3, a4]
    simp
  · have hl : ∀ v ∈ L, v.point < h := by
      intro v hv
      obtain ⟨j, hj, rfl⟩ := List.getElem_of_mem hv
      exact h2 j hj
    have a1 : L.filter (fun v => decide (h ≤ v.point)) = [] := List.filter_eq_nil_iff.2 fun v hv => by simpa using hl v hv
    have a3 : L.filter (fun v => decide (v.point < h)) = L := List.filter_eq_self.2 fun v hv => by simpa using hl v hv
    rw [a1, a3]
    simp

end Verif.CHash
