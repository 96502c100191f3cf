import Verif.Analyzer.ScanDetector
import Verif.Spec.Scan
import Mathlib.Data.List.Perm.Basic
import Mathlib.Data.List.Nodup
import Mathlib.Data.List.Perm.Lattice
/-!
# Proofs about the scan detector
-/

namespace Verif.ScanDetector
open Verif Verif.Spec

structure Group (R : List Int) (D : Int) (ss : Stream) : Prop where
  n : ss.n = ss.times.length
  sorted : ss.times.Pairwise (· < ·)
  first : ss.start ∈ ss.times
  next : R[ss.start]? = some ss.next
  close : ∀ t ∈ ss.times, ∃ x, R[t]? = some x ∧ Recurs x ∧ ss.start ≤ t ∧ (t : Int) ≤ ss.start + D + ss.n ∧ x ≤ ss.next + D + ss.n ∧ ss.next ≤ x + D + ss.n

theorem Group.scan {R : List Int} {D : Int} {ss : Stream} (h : Group R D ss) : IsScan R D ss.times := by
  refine ⟨h.sorted, ss.start, ss.next, h.first, h.next, ?_⟩
  rw [← h.n]
  exact h.close

structure Inv (R : List Int) (D m : Int) (len : Nat) (s : St) : Prop where
  nodup : (s.streams.flatMap Stream.times).Nodup
  free : ∀ t ∈ s.streams.flatMap Stream.times, s.marks[t]? = some false ∧ t < s.now
  good : ∀ ss ∈ s.streams, Group R D ss
  count : s.marks.count true = s.nScan
  len : s.marks.length = len
  sum : s.nScan + s.nNon + (s.streams.map Stream.n).sum = s.now
  sizes : (s.sizes.filter (fun n : Nat => decide ((n : Int) > m))).sum = s.nScan
  marked : ∀ i, s.marks[i]? = some true → i < s.now ∧ ∃ g, i ∈ g ∧ (g.length : Int) > m ∧ IsScan R D g

theorem Inv.perm {R : List Int} {D m : Int} {len : Nat} {s : St} (h : Inv R D m len s) {l : List Stream} (hp : s.streams.Perm l) : Inv R D m len { s with streams := l } where
  nodup := (hp.flatMap_right _).nodup_iff.1 h.nodup
  free t ht := h.free t ((hp.flatMap_right _).mem_iff.2 ht)
  good ss hs := h.good ss (hp.mem_iff.2 hs)
  count := h.count
  len := h.len
  sum := by
    have := (hp.map Stream.n).sum_nat
    show s.nScan + s.nNon + (l.map Stream.n).sum = s.now
    rw [← this]; exact h.sum
  sizes := h.sizes
  marked := h.marked

theorem count_set_true : ∀ (l : List Bool) (t : Nat), l[t]? = some false → (l.set t true).count true = l.count true + 1
  | [], t, h => by simp at h
  | b :: l, 0, h => by
    have hb : b = false := by simpa using h
    subst hb
    simp
  | b :: l, t + 1, h => by
    have ih := count_set_true l t (by simpa using h)
    rw [List.set_cons_succ, List.count_cons, List.count_cons, ih]
    omega

theorem markAll_spec : ∀ (ts : List Nat) (marks : List Bool), ts.Nodup → (∀ t ∈ ts, marks[t]? = some false) →
    ∃ marks', markAll marks ts = .ok marks' ∧ marks'.length = marks.length ∧ marks'.count true = marks.count true + ts.length ∧
      (∀ t, t ∉ ts → marks'[t]? = marks[t]?) ∧ ∀ t ∈ ts, marks'[t]? = some true
  | [], marks, _, _ => ⟨marks, rfl, rfl, rfl, fun _ _ => rfl, fun _ h => by cases h⟩
  | t :: ts, marks, hn, hf => by
    rw [List.nodup_cons] at hn
    have h0 := hf t (List.mem_cons_self ..)
    have hlt : t < marks.length := by
      by_cases hh : t < marks.length
      · exact hh
      · rw [List.getElem?_eq_none (by omega)] at h0; cases h0
    obtain ⟨m', h1, h2, h3, h4, h5⟩ := markAll_spec ts (marks.set t true) hn.2 (by
      intro u hu
      have hne : t ≠ u := fun he => hn.1 (he ▸ hu)
      rw [List.getElem?_set_ne hne]
      exact hf u (List.mem_cons_of_mem _ hu))
    refine ⟨m', ?_, ?_, ?_, ?_, ?_⟩
    · unfold markAll; rw [if_pos hlt]; exact h1
    · rw [h2, List.length_set]
    · rw [h3, count_set_true _ _ h0, List.length_cons]; omega
    · intro u hu
      rw [List.mem_cons, not_or] at hu
      rw [h4 u hu.2, List.getElem?_set_ne (Ne.symm hu.1)]
    · intro u hu
      by_cases hus : u ∈ ts
      · exact h5 u hus
      · rw [h4 u hus]
        rcases List.mem_cons.1 hu with he | he
        · subst he; simp [hlt]
        · exact absurd he hus

theorem account_inv {R : List Int} {D m : Int} {len : Nat} {s : St} {ss : Stream} {rest : List Stream} (h : Inv R D m len { s with streams := ss :: rest }) :
    ∃ s', account m s ss = .ok s' ∧ s'.streams = s.streams ∧ s'.now = s.now ∧ Inv R D m len { s' with streams := rest } := by
  have hn := h.nodup
  rw [List.flatMap_cons, List.nodup_append] at hn
  have hg := h.good ss (List.mem_cons_self ..)
  have hsum := h.sum
  rw [List.map_cons, List.sum_cons] at hsum
  change s.nScan + s.nNon + (ss.n + (rest.map Stream.n).sum) = s.now at hsum
  have hfree : ∀ t ∈ rest.flatMap Stream.times, s.marks[t]? = some false ∧ t < s.now := fun t ht => h.free t (by
    rw [List.flatMap_cons]; exact List.mem_append_right _ ht)
  unfold account
  by_cases hm : (ss.n : Int) > m
  · rw [if_pos hm]
    obtain ⟨m', h1, h2, h3, h4, h5⟩ := markAll_spec ss.times s.marks hn.1 (fun t ht => (h.free t (by
      rw [List.flatMap_cons]; exact List.mem_append_left _ ht)).1)
    rw [h1, Res.bind_ok]
    refine ⟨_, rfl, rfl, rfl, ⟨hn.2.1, ?_, fun x hx => h.good x (List.mem_cons_of_mem _ hx), ?_, h2.trans h.len, ?_, ?_, ?_⟩⟩
    · intro t ht
      have hnt : t ∉ ss.times := fun hh => hn.2.2 t hh t ht rfl
      show m'[t]? = _ ∧ _
      rw [h4 t hnt]
      exact hfree t ht
    · show m'.count true = s.nScan + ss.n
      rw [h3, h.count, hg.n]
    · show s.nScan + ss.n + s.nNon + (rest.map Stream.n).sum = s.now
      omega
    · show ((s.sizes ++ [ss.n]).filter _).sum = s.nScan + ss.n
      have hs := h.sizes
      change (s.sizes.filter _).sum = s.nScan at hs
      rw [List.filter_append, List.sum_append, hs]
      simp [hm]
    · intro i hi
      change m'[i]? = some true at hi
      by_cases hit : i ∈ ss.times
      · exact ⟨(h.free i (by rw [List.flatMap_cons]; exact List.mem_append_left _ hit)).2, ss.times, hit, by rw [← hg.n]; exact hm, hg.scan⟩
      · rw [h4 i hit] at hi
        exact h.marked i hi
  · rw [if_neg hm]
    refine ⟨_, rfl, rfl, rfl, ⟨hn.2.1, hfree, fun x hx => h.good x (List.mem_cons_of_mem _ hx), h.count, h.len, ?_, ?_, h.marked⟩⟩
    · show s.nScan + (s.nNon + ss.n) + (rest.map Stream.n).sum = s.now
      omega
    · show ((s.sizes ++ [ss.n]).filter _).sum = s.nScan
      have hs := h.sizes
      change (s.sizes.filter _).sum = s.nScan at hs
      rw [List.filter_append, List.sum_append, hs]
      simp [hm]

theorem swapOut_perm {l : List Stream} {pos : Nat} {ss : Stream} (h : l[pos]? = some ss) : l.Perm (ss :: swapOut l pos) := by
  have hlt : pos < l.length := by
    by_cases hh : pos < l.length
    · exact hh
    · rw [List.getElem?_eq_none (by omega)] at h; cases h
  rcases List.eq_nil_or_concat l with hl | ⟨l', x, hl⟩
  · subst hl; simp at hlt
  · rw [List.concat_eq_append] at hl
    subst hl
    have hs : swapOut (l' ++ [x]) pos = ((l' ++ [x]).set pos x).dropLast := by
      simp [swapOut]
    rw [hs]
    by_cases hp : pos < l'.length
    · rw [List.set_append_left _ _ hp, List.dropLast_concat]
      rw [List.getElem?_append_left hp, List.getElem?_eq_getElem hp] at h
      injection h with h
      have h1 : l'.Perm (l'[pos] :: l'.eraseIdx pos) := (List.getElem_cons_eraseIdx_perm hp).symm
      have h2 : (l'.set pos x).Perm (x :: l'.eraseIdx pos) := List.set_perm_cons_eraseIdx hp x
      rw [h] at h1
      refine (List.perm_append_singleton x l').trans ?_
      refine (List.Perm.cons x h1).trans ((List.Perm.swap ..).trans (List.Perm.cons _ h2.symm))
    · have he : pos = l'.length := by
        rw [List.length_append, List.length_singleton] at hlt; omega
      subst he
      rw [List.set_append_right _ _ (Nat.le_refl _)]
      simp only [Nat.sub_self, List.set_cons_zero, List.dropLast_concat]
      rw [List.getElem?_append_right (Nat.le_refl _)] at h
      simp only [Nat.sub_self, List.getElem?_cons_zero] at h
      injection h with h
      subst h
      exact List.perm_append_singleton x l'

theorem retire_inv {R : List Int} {D m : Int} {len : Nat} : ∀ (fuel pos : Nat) (s : St), Inv R D m len s → s.streams.length ≤ fuel + pos →
    ∃ s', retire D m fuel pos s = .ok s' ∧ Inv R D m len s' ∧ s'.now = s.now
  | 0, pos, s, h, hl => by
    refine ⟨s, ?_, h, rfl⟩
    unfold retire
    rw [if_neg (by omega)]
  | fuel + 1, pos, s, h, hl => by
    unfold retire
    cases hp : s.streams[pos]? with
    | none => exact ⟨s, rfl, h, rfl⟩
    | some ss =>
      dsimp only
      have hperm := swapOut_perm hp
      by_cases hx : (s.now : Int) > ss.start + D + ss.n
      · rw [if_pos hx]
        obtain ⟨s', h1, h2, h3, h4⟩ := account_inv (h.perm hperm)
        rw [h1, Res.bind_ok, h2]
        have hlen := hperm.length_eq
        rw [List.length_cons] at hlen
        obtain ⟨s'', h5, h6, h7⟩ := retire_inv fuel (pos + 1) _ h4 (by show (swapOut s.streams pos).length ≤ _; omega)
        exact ⟨s'', h5, h6, h7.trans h3⟩
      · rw [if_neg hx]
        obtain ⟨s'', h5, h6, h7⟩ := retire_inv fuel (pos + 1) s h (by omega)
        exact ⟨s'', h5, h6, h7⟩

theorem join_spec {D : Int} {now : Nat} {next : Int} : ∀ (l l' : List Stream), join D now next l = some l' →
    ∃ a ss b, l = a ++ ss :: b ∧ l' = a ++ { ss with n := ss.n + 1, times := ss.times ++ [now] } :: b ∧ isPart D ss now next = true
  | [], l', h => by cases h
  | ss :: rest, l', h => by
    unfold join at h
    split at h
    · rename_i hp
      injection h with h
      exact ⟨[], ss, rest, rfl, h.symm, hp⟩
    · obtain ⟨l1, h1, h2⟩ := Option.map_eq_some_iff.1 h
      obtain ⟨a, s', b, h3, h4, h5⟩ := join_spec rest l1 h1
      exact ⟨ss :: a, s', b, by rw [h3]; rfl, by rw [← h2, h4]; rfl, h5⟩

theorem Group.add {R : List Int} {D : Int} {ss : Stream} {now : Nat} {x : Int} (h : Group R D ss) (hb : ∀ t ∈ ss.times, t < now) (hr : R[now]? = some x) (hx : Recurs x)
    (hp : isPart D ss now x = true) : Group R D { ss with n := ss.n + 1, times := ss.times ++ [now] } where
  n := by
    show ss.n + 1 = (ss.times ++ [now]).length
    rw [List.length_append, List.length_singleton, h.n]
  sorted := by
    refine List.pairwise_append.2 ⟨h.sorted, List.pairwise_singleton _ _, ?_⟩
    intro a ha b hb'
    rw [List.mem_singleton] at hb'
    subst hb'
    exact hb a ha
  first := List.mem_append_left _ h.first
  next := h.next
  close := by
    intro t ht
    show ∃ x', _ ∧ _ ∧ ss.start ≤ t ∧ (t : Int) ≤ ss.start + D + ((ss.n + 1 : Nat) : Int) ∧ x' ≤ ss.next + D + ((ss.n + 1 : Nat) : Int) ∧ ss.next ≤ x' + D + ((ss.n + 1 : Nat) : Int)
    rcases List.mem_append.1 ht with ht | ht
    · obtain ⟨y, h1, h2, h3, h4, h5, h6⟩ := h.close t ht
      exact ⟨y, h1, h2, h3, by omega, by omega, by omega⟩
    · rw [List.mem_singleton] at ht
      subst ht
      have hs := hb _ h.first
      unfold isPart at hp
      split at hp
      · cases hp
      · split at hp
        · cases hp
        · exact ⟨x, hr, hx, by omega, by omega, by omega, by omega⟩

theorem add_inv {R : List Int} {D m : Int} {len : Nat} {s : St} (h : Inv R D m len s) (hD : 0 ≤ D) {x : Int} (hR : R.length ≤ len) (hr : R[s.now]? = some x) (hx : x ≠ -2) :
    ∃ s', add D m s x = .ok s' ∧ Inv R D m len s' ∧ s'.now = s.now + 1 := by
  unfold add
  rw [if_neg hx]
  by_cases hn : x = -1 ∨ x = 9223372036854775807
  · rw [if_pos hn]
    refine ⟨_, rfl, ⟨h.nodup, fun t ht => ⟨(h.free t ht).1, Nat.lt_succ_of_lt (h.free t ht).2⟩, h.good, h.count, h.len, ?_, h.sizes, fun i hi => ?_⟩, rfl⟩
    · have := h.sum
      show s.nScan + (s.nNon + 1) + (s.streams.map Stream.n).sum = s.now + 1
      omega
    · exact ⟨Nat.lt_succ_of_lt (h.marked i hi).1, (h.marked i hi).2⟩
  · rw [if_neg hn]
    have hrec : Recurs x := ⟨fun he => hn (Or.inl he), fun he => hn (Or.inr he)⟩
    have hnowlt : s.now < R.length := by
      by_cases hh : s.now < R.length
      · exact hh
      · rw [List.getElem?_eq_none (by omega)] at hr; cases hr
    have hunmarked : ∀ s' : St, Inv R D m len s' → s'.now = s.now → s'.marks[s.now]? = some false := by
      intro s' h' hnow
      have hl : s.now < s'.marks.length := by rw [h'.len]; omega
      cases hb : s'.marks[s.now]? with
      | none => rw [List.getElem?_eq_getElem hl] at hb; cases hb
      | some b =>
        cases b with
        | false => rfl
        | true =>
          have := (h'.marked _ hb).1
          omega
    cases hj : join D s.now x s.streams with
    | some l' =>
      dsimp only
      obtain ⟨a, ss, b, h1, h2, h3⟩ := join_spec _ _ hj
      have hgood := h.good
      have hfree := h.free
      have hnd := h.nodup
      have hsum := h.sum
      have hbelow : ∀ t ∈ ss.times, t < s.now := fun t ht => (hfree t (by rw [h1]; simp [ht])).2
      have hp' : (l'.flatMap Stream.times).Perm (s.now :: s.streams.flatMap Stream.times) := by
        rw [h1, h2]
        simp only [List.flatMap_append, List.flatMap_cons]
        rw [← List.append_assoc, ← List.append_assoc, ← List.append_assoc, List.append_assoc (a.flatMap Stream.times ++ ss.times)]
        exact List.perm_middle
      refine ⟨_, rfl, ⟨?_, ?_, ?_, h.count, h.len, ?_, h.sizes, fun i hi => ⟨Nat.lt_succ_of_lt (h.marked i hi).1, (h.marked i hi).2⟩⟩, rfl⟩
      · refine hp'.nodup_iff.2 (List.nodup_cons.2 ⟨fun hm => ?_, hnd⟩)
        exact Nat.lt_irrefl _ (hfree _ hm).2
      · intro t ht
        rcases List.mem_cons.1 (hp'.mem_iff.1 ht) with he | he
        · subst he
          exact ⟨hunmarked s h rfl, Nat.lt_succ_self _⟩
        · exact ⟨(hfree t he).1, Nat.lt_succ_of_lt (hfree t he).2⟩
      · intro y hy
        change y ∈ l' at hy
        rw [h2, List.mem_append, List.mem_cons] at hy
        rcases hy with hy | hy | hy
        · exact hgood y (by rw [h1]; simp [hy])
        · subst hy
          exact (hgood ss (by rw [h1]; simp)).add hbelow hr hrec h3
        · exact hgood y (by rw [h1]; simp [hy])
      · show s.nScan + s.nNon + (l'.map Stream.n).sum = s.now + 1
        rw [h1] at hsum
        rw [h2]
        simp only [List.map_append, List.map_cons, List.sum_append, List.sum_cons] at hsum ⊢
        omega
    | none =>
      dsimp only
      have hret : ∃ s', (if (s.streams.length : Int) ≥ D - 1 then retire D m s.streams.length 0 s else .ok s) = .ok s' ∧ Inv R D m len s' ∧ s'.now = s.now := by
        split
        · exact retire_inv _ _ _ h (by omega)
        · exact ⟨s, rfl, h, rfl⟩
      obtain ⟨s', h1, h2, h3⟩ := hret
      rw [h1, Res.bind_ok]
      have hp' : ((s'.streams ++ [({ start := s.now, next := x, times := [s.now] } : Stream)]).flatMap Stream.times).Perm (s.now :: s'.streams.flatMap Stream.times) := by
        rw [List.flatMap_append]
        simp only [List.flatMap_cons, List.flatMap_nil, List.append_nil]
        exact List.perm_append_singleton _ _
      refine ⟨_, rfl, ⟨?_, ?_, ?_, h2.count, h2.len, ?_, h2.sizes, fun i hi => ⟨?_, (h2.marked i hi).2⟩⟩, rfl⟩
      · refine hp'.nodup_iff.2 (List.nodup_cons.2 ⟨fun hm => ?_, h2.nodup⟩)
        have := (h2.free _ hm).2
        omega
      · intro t ht
        show s'.marks[t]? = some false ∧ t < s.now + 1
        rcases List.mem_cons.1 (hp'.mem_iff.1 ht) with he | he
        · subst he
          exact ⟨hunmarked s' h2 h3, Nat.lt_succ_self _⟩
        · exact ⟨(h2.free t he).1, by have := (h2.free t he).2; omega⟩
      · intro y hy
        change y ∈ s'.streams ++ _ at hy
        rw [List.mem_append, List.mem_singleton] at hy
        rcases hy with hy | hy
        · exact h2.good y hy
        · subst hy
          refine ⟨rfl, List.pairwise_singleton _ _, List.mem_singleton.2 rfl, hr, ?_⟩
          intro t ht
          rw [List.mem_singleton] at ht
          subst ht
          refine ⟨x, hr, hrec, Nat.le_refl _, ?_, ?_, ?_⟩ <;> (show _ ≤ _ + D + ((1 : Nat) : Int)) <;> dsimp only <;> omega
      · have := h2.sum
        show s'.nScan + s'.nNon + ((s'.streams ++ [_]).map Stream.n).sum = s.now + 1
        rw [List.map_append, List.sum_append]
        simp only [List.map_cons, List.map_nil, List.sum_cons, List.sum_nil]
        omega
      · show i < s.now + 1
        have := (h2.marked i hi).1
        omega

theorem run_inv {D m : Int} {len : Nat} (hD : 0 ≤ D) : ∀ (xs pre : List Int) (s : St), (pre ++ xs).length ≤ len → (∀ x ∈ xs, x ≠ -2) → s.now = pre.length → Inv (pre ++ xs) D m len s →
    ∃ s', run D m s xs = .ok s' ∧ Inv (pre ++ xs) D m len s' ∧ s'.now = (pre ++ xs).length
  | [], pre, s, _, _, hn, h => ⟨s, rfl, h, by rw [List.append_nil]; exact hn⟩
  | x :: xs, pre, s, hl, hx, hn, h => by
    have hr : (pre ++ x :: xs)[s.now]? = some x := by
      rw [hn, List.getElem?_append_right (Nat.le_refl _)]; simp
    obtain ⟨s', h1, h2, h3⟩ := add_inv h hD hl hr (hx x (List.mem_cons_self ..))
    have e : pre ++ x :: xs = (pre ++ [x]) ++ xs := by rw [List.append_assoc]; rfl
    rw [e] at h2 hl ⊢
    obtain ⟨s'', h4, h5, h6⟩ := run_inv hD xs (pre ++ [x]) s' hl (fun y hy => hx y (List.mem_cons_of_mem _ hy)) (by rw [h3, hn]; simp) h2
    refine ⟨s'', ?_, h5, h6⟩
    show add D m s x >>= _ = _
    rw [h1]; exact h4

theorem init_inv (R : List Int) (D m : Int) (len : Nat) : Inv R D m len (init len) := by
  refine ⟨List.nodup_nil, (fun t ht => by cases ht), (fun ss hs => by cases hs), ?_, ?_, rfl, rfl, ?_⟩
  · simp [init, List.count_replicate]
  · simp [init]
  · intro i hi
    simp [init, List.getElem?_replicate] at hi

end Verif.ScanDetector
