import Verif.Proof.PQueue
/-!
# The binary heap without its order

What remains true of a heap whose priorities are changed behind its back: nothing is lost or duplicated and every operation returns.
-/

namespace Verif.PQueue
variable {P : Type} [LinearOrder P]

theorem bubbleLoop_shape {mp : P} {v : Node} {M : List Node} : ∀ (k : Nat) (q : Q P) (i : Nat), i < k → Hole q i v M →
    ∃ q' i', bubbleLoop mp k q i = .ok (q', i') ∧ Hole q' i' v M ∧ q'.pri = q.pri ∧ q'.size = q.size ∧ ∀ x ∉ M, q'.pos x = q.pos x
  | 0, q, i, hk, _ => by omega
  | k + 1, q, i, hk, h => by
    by_cases hi : i > 1
    · have hp2 : i / 2 < q.size := by have := h.hi; omega
      obtain ⟨x, e1, _, e3, _⟩ := h.el (i / 2) (by omega) hp2 (by omega)
      have hrd : rd q (i / 2) = .ok x := rd_ok (Nat.lt_of_lt_of_le hp2 h.av) e1
      by_cases hlt : q.pri x < mp
      · have hwr := wr_ok (q := q) (i := i) (x := x) (Nat.lt_of_lt_of_le h.hi h.av)
        obtain ⟨hs, _⟩ := h.shift (by omega) hp2 (by omega) e1
        obtain ⟨q', i', r, h', hp', hs', ho'⟩ := bubbleLoop_shape k (shift q i x) (i / 2) (by omega) hs
        refine ⟨q', i', ?_, h', hp', hs', fun y hy => ?_⟩
        · simp only [bubbleLoop, parent_eq, if_pos hi, hrd, Res.bind_ok, if_pos hlt, hwr]
          exact r
        · rw [ho' y hy]
          have : y ≠ x := fun e => hy (e ▸ e3)
          simp [shift, setPos, this]
      · exact ⟨q, i, by simp only [bubbleLoop, parent_eq, if_pos hi, hrd, Res.bind_ok, if_neg hlt], h, rfl, rfl, fun _ _ => rfl⟩
    · exact ⟨q, i, by simp only [bubbleLoop, if_neg hi], h, rfl, rfl, fun _ _ => rfl⟩

theorem percLoop_shape {mp : P} {v : Node} {M : List Node} : ∀ (k : Nat) (q : Q P) (i : Nat), q.size ≤ k + i → Hole q i v M →
    ∃ q' i', percLoop mp k q i = .ok (q', i') ∧ Hole q' i' v M ∧ q'.pri = q.pri ∧ q'.size = q.size ∧ ∀ x ∉ M, q'.pos x = q.pos x
  | 0, q, i, hk, h => by have := h.hi; omega
  | k + 1, q, i, hk, h => by
    by_cases hc : 2 * i < q.size
    · obtain ⟨c, y, m1, m2, m3, m4, m5, m6, _⟩ := maxchild_some h hc
      have hrd : rd q c = .ok y := rd_ok (Nat.lt_of_lt_of_le m4 h.av) m6
      have hc0 : c ≠ 0 := by omega
      obtain ⟨y', e1, _, e3, _⟩ := h.el c (by omega) m4 m5
      rw [m6] at e1; cases e1
      by_cases hlt : mp < q.pri y
      · have hwr := wr_ok (q := q) (i := i) (x := y) (Nat.lt_of_lt_of_le h.hi h.av)
        obtain ⟨hs, _⟩ := h.shift (by omega) m4 m5 m6
        have hsz : (shift q i y).size = q.size := rfl
        obtain ⟨q', i', r, h', hp', hs', ho'⟩ := percLoop_shape k (shift q i y) c (by rw [hsz]; omega) hs
        refine ⟨q', i', ?_, h', hp', hs', fun z hz => ?_⟩
        · simp only [percLoop, m1, Res.bind_ok, if_neg hc0, hrd, if_pos hlt, hwr]
          exact r
        · rw [ho' z hz]
          have : z ≠ y := fun e => hz (e ▸ e3)
          simp [shift, setPos, this]
      · exact ⟨q, i, by simp only [percLoop, m1, Res.bind_ok, if_neg hc0, hrd, if_neg hlt], h, rfl, rfl, fun _ _ => rfl⟩
    · exact ⟨q, i, by simp only [percLoop, maxchild_none (Nat.not_lt.1 hc), Res.bind_ok, if_true], h, rfl, rfl, fun _ _ => rfl⟩

/-- Everything but the order; `K` are all nodes ever inserted, of which those outside the heap `M` claim the first place. -/
structure Shape (q : Q P) (M K : List Node) : Prop where
  av : q.size ≤ q.avail
  av2 : 2 ≤ q.avail
  stp : 1 ≤ q.step
  len : M.length + 1 = q.size
  nd : M.Nodup
  el : ∀ j, 1 ≤ j → j < q.size → ∃ x, q.d j = some x ∧ q.pos x = j ∧ x ∈ M
  sur : ∀ x ∈ M, 1 ≤ q.pos x ∧ q.pos x < q.size ∧ q.d (q.pos x) = some x
  sub : ∀ x ∈ M, x ∈ K
  lost : ∀ x ∈ K, x ∉ M → q.pos x = 1
  d1 : K ≠ [] → ∃ y ∈ K, q.d 1 = some y

theorem Hole.fill_shape {q : Q P} {i v M K} (h : Hole q i v M) (hsub : ∀ x ∈ M, x ∈ K) (hl : ∀ x ∈ K, x ∉ M → q.pos x = 1) : Shape (PQueue.fill q i v) M K := by
  have hlo := h.lo
  have hhi := h.hi
  have hel : ∀ j, 1 ≤ j → j < q.size → ∃ x, (PQueue.fill q i v).d j = some x ∧ (PQueue.fill q i v).pos x = j ∧ x ∈ M := by
    intro j h1 h2
    by_cases hj : j = i
    · subst hj; exact ⟨v, by simp [PQueue.fill, setPos], by simp [PQueue.fill, setPos], h.vin⟩
    · obtain ⟨x, e1, e2, e3, e4⟩ := h.el j h1 h2 hj
      exact ⟨x, by simp [PQueue.fill, setPos, hj, e1], by simp [PQueue.fill, setPos, e4, e2], e3⟩
  have hav := h.av
  refine ⟨h.av, show 2 ≤ q.avail by omega, h.stp, h.len, h.nd, hel, ?_, hsub, ?_, ?_⟩
  · intro x hx
    by_cases hv : x = v
    · subst hv
      simp [PQueue.fill, setPos]; omega
    · obtain ⟨e1, e2, e3, e4⟩ := h.sur x hx hv
      simp only [PQueue.fill, setPos, hv, if_false]
      exact ⟨e1, e2, by simp [e3, e4]⟩
  · intro x hx hM
    have : x ≠ v := fun e => hM (e ▸ h.vin)
    simp only [PQueue.fill, setPos, this, if_false]
    exact hl x hx hM
  · intro _
    obtain ⟨x, e1, _, e3⟩ := hel 1 (Nat.le_refl 1) (by omega)
    exact ⟨x, hsub x e3, e1⟩

theorem percolateDown_shape {q : Q P} {i : Nat} {v : Node} {M K : List Node} (hd : q.d i = some v) (h : Hole q i v M) (hsub : ∀ x ∈ M, x ∈ K)
    (hl : ∀ x ∈ K, x ∉ M → q.pos x = 1) : ∃ q', percolateDown q i = .ok q' ∧ Shape q' M K ∧ q'.pri = q.pri := by
  obtain ⟨q', i', r, h', hp, hs, ho⟩ := percLoop_shape (mp := q.pri v) (q.size + 1) q i (by omega) h
  refine ⟨fill q' i' v, ?_, h'.fill_shape hsub (fun x hx hM => (ho x hM).trans (hl x hx hM)), hp⟩
  simp only [percolateDown, rd_ok (Nat.lt_of_lt_of_le h.hi h.av) hd, Res.bind_ok, r, wr_ok (Nat.lt_of_lt_of_le h'.hi h'.av)]
  rfl

theorem bubbleUp_shape {q : Q P} {i : Nat} {v : Node} {M K : List Node} (hd : q.d i = some v) (h : Hole q i v M) (hsub : ∀ x ∈ M, x ∈ K)
    (hl : ∀ x ∈ K, x ∉ M → q.pos x = 1) : ∃ q', bubbleUp q i = .ok q' ∧ Shape q' M K ∧ q'.pri = q.pri := by
  obtain ⟨q', i', r, h', hp, hs, ho⟩ := bubbleLoop_shape (mp := q.pri v) (i + 1) q i (by omega) h
  refine ⟨fill q' i' v, ?_, h'.fill_shape hsub (fun x hx hM => (ho x hM).trans (hl x hx hM)), hp⟩
  simp only [bubbleUp, rd_ok (Nat.lt_of_lt_of_le h.hi h.av) hd, Res.bind_ok, r, wr_ok (Nat.lt_of_lt_of_le h'.hi h'.av)]
  rfl

theorem Shape.hole {q : Q P} {M K} (h : Shape q M K) {x} (hx : x ∈ M) : Hole q (q.pos x) x M := by
  obtain ⟨p1, p2, p3⟩ := h.sur x hx
  refine ⟨p1, p2, h.av, h.stp, h.len, h.nd, hx, ?_, ?_⟩
  · intro j j1 j2 j3
    obtain ⟨y, e1, e2, e3⟩ := h.el j j1 j2
    exact ⟨y, e1, e2, e3, fun hh => j3 (by rw [← e2, hh])⟩
  · intro y hy hyx
    obtain ⟨f1, f2, f3⟩ := h.sur y hy
    refine ⟨f1, f2, fun hh => hyx ?_, f3⟩
    rw [hh, p3] at f3; simpa using f3.symm

theorem Shape.setPri {q : Q P} {M K} (h : Shape q M K) (x) (p) : Shape (setPri q x p) M K :=
  ⟨h.av, h.av2, h.stp, h.len, h.nd, h.el, h.sur, h.sub, h.lost, h.d1⟩

theorem init_shape (n : Nat) (hn : 1 ≤ n) (pri : Node → P) (pos) : Shape (init n pri pos) [] [] :=
  ⟨by simp [init], by simp [init]; omega, by simp [init], rfl, by simp, fun j h1 h2 => by simp [init] at h2; omega, fun x hx => by simp at hx, by simp, by simp, by simp⟩

/-- percolating down from the place of a node that was ever inserted -/
theorem percolateDown_known {q : Q P} {M K} (h : Shape q M K) {x} (hx : x ∈ K) : ∃ q', percolateDown q (q.pos x) = .ok q' ∧ Shape q' M K ∧ q'.pri = q.pri := by
  by_cases hM : x ∈ M
  · exact percolateDown_shape (h.sur x hM).2.2 (h.hole hM) h.sub h.lost
  · rw [h.lost x hx hM]
    obtain ⟨y, hy, hd⟩ := h.d1 (List.ne_nil_of_mem hx)
    by_cases hs : 1 < q.size
    · obtain ⟨z, e1, e2, e3⟩ := h.el 1 (Nat.le_refl 1) hs
      have := h.hole e3
      rw [e2] at this
      exact percolateDown_shape e1 this h.sub h.lost
    · have hav := h.av2
      have hM0 : M = [] := List.eq_nil_of_length_eq_zero (by have := h.len; omega)
      refine ⟨fill q 1 y, ?_, ?_, rfl⟩
      · simp only [percolateDown, rd_ok (by omega) hd, Res.bind_ok, percLoop, maxchild_none (q := q) (i := 1) (by omega), if_true, wr_ok (q := q) (i := 1) (x := y) (by omega)]
        rfl
      · subst hM0
        refine ⟨h.av, h.av2, h.stp, h.len, h.nd, fun j h1 h2 => ?_, by simp, by simp, fun z hz _ => ?_, fun _ => ⟨y, hy, by simp [fill, setPos]⟩⟩
        · have : (fill q 1 y).size = q.size := rfl
          omega
        · simp only [fill, setPos]
          split
          · rfl
          · exact h.lost z hz (by simp)

theorem insert_shape {q : Q P} {M K K'} (h : Shape q M K) {x} (hx : x ∉ M) (hK : ∀ y, y ∈ K' ↔ y = x ∨ y ∈ K) :
    ∃ q', insert q x = .ok q' ∧ Shape q' (x :: M) K' ∧ q'.pri = q.pri := by
  set q1 : Q P := if q.size ≥ q.avail then { q with avail := q.size + q.step } else q with hq1
  have e_d : q1.d = q.d := by rw [hq1]; split <;> rfl
  have e_s : q1.size = q.size := by rw [hq1]; split <;> rfl
  have e_st : q1.step = q.step := by rw [hq1]; split <;> rfl
  have e_p : q1.pri = q.pri := by rw [hq1]; split <;> rfl
  have e_o : q1.pos = q.pos := by rw [hq1]; split <;> rfl
  have hav : q.size < q1.avail := by
    rw [hq1]; have := h.stp
    split
    · simp; omega
    · omega
  have hsz : 1 ≤ q.size := by have := h.len; omega
  set q2 : Q P := { q1 with size := q1.size + 1 } with hq2
  have hwr : wr q2 q1.size x = .ok { q2 with d := fun j => if j = q1.size then some x else q2.d j } := wr_ok (by rw [hq2]; simpa [e_s] using hav)
  set q3 : Q P := { q2 with d := fun j => if j = q1.size then some x else q2.d j } with hq3
  have d3 : ∀ j, q3.d j = if j = q.size then some x else q.d j := by intro j; simp [hq3, hq2, e_d, e_s]
  have s3 : q3.size = q.size + 1 := by simp [hq3, hq2, e_s]
  have p3 : q3.pri = q.pri := by simp [hq3, hq2, e_p]
  have o3 : q3.pos = q.pos := by simp [hq3, hq2, e_o]
  have hH : Hole q3 q.size x (x :: M) := by
    refine ⟨hsz, by rw [s3]; omega, by rw [s3]; simp [hq3, hq2]; omega, by simpa [hq3, hq2, e_st] using h.stp, by rw [s3]; simp; have := h.len; omega,
      by simpa using ⟨hx, h.nd⟩, by simp, ?_, ?_⟩
    · intro j j1 j2 j3
      rw [s3] at j2
      obtain ⟨y, f1, f2, f3⟩ := h.el j j1 (by omega)
      exact ⟨y, by rw [d3, if_neg j3, f1], by rw [o3, f2], by simp [f3], fun hh => hx (hh ▸ f3)⟩
    · intro y hy hyx
      have hyM : y ∈ M := by simpa [hyx] using hy
      obtain ⟨f1, f2, f3⟩ := h.sur y hyM
      rw [o3, s3, d3]
      exact ⟨f1, by omega, by omega, by rw [if_neg (by omega), f3]⟩
  obtain ⟨q', r, hi, hp⟩ := bubbleUp_shape (K := K') (by rw [d3, if_pos rfl]) hH (fun y hy => (hK y).2 (by
    rcases List.mem_cons.1 hy with h' | h'
    · exact .inl h'
    · exact .inr (h.sub y h'))) (fun y hy hM => by
      rw [o3]
      rcases (hK y).1 hy with h' | h'
      · exact absurd h' (fun e => hM (by simp [e]))
      · exact h.lost y h' (fun hh => hM (by simp [hh])))
  refine ⟨q', ?_, hi, hp.trans p3⟩
  simp only [insert]
  rw [← hq1, ← hq2, hwr]
  simp only [Res.bind_ok]
  rw [e_s]
  exact r

theorem pop_shape {q : Q P} {M K} (h : Shape q M K) (hne : M ≠ []) :
    ∃ x q', pop q = .ok (some x, q') ∧ x ∈ M ∧ Shape q' (M.erase x) K ∧ q'.pri = q.pri := by
  have hlen := h.len
  have hpos : 0 < M.length := List.length_pos_of_ne_nil hne
  obtain ⟨x, x3, xp, hx⟩ := h.el 1 (Nat.le_refl _) (by omega)
  obtain ⟨l, e1, e2, e3⟩ := h.el (q.size - 1) (by omega) (by omega)
  have hav := h.av
  have hs1 : q.size ≠ 1 := by omega
  have r0 : rd q 1 = .ok x := rd_ok (by omega) x3
  have r1 : rd { q with size := q.size - 1 } (q.size - 1) = .ok l := rd_ok (by simp; omega) e1
  have w1 : wr { q with size := q.size - 1 } 1 l = .ok { q with size := q.size - 1, d := fun j => if j = 1 then some l else q.d j } :=
    wr_ok (by simp; omega)
  have hlost : ∀ y ∈ K, y ∉ M.erase x → q.pos y = 1 := by
    intro y hy hM
    by_cases hyx : y = x
    · rw [hyx, xp]
    · exact h.lost y hy (fun hh => hM ((h.nd.mem_erase_iff).2 ⟨hyx, hh⟩))
  have hsub : ∀ y ∈ M.erase x, y ∈ K := fun y hy => h.sub y (List.mem_of_mem_erase hy)
  by_cases hl : q.pos x = q.size - 1
  · have hlx : l = x := by rw [← hl, xp, x3] at e1; simpa using e1.symm
    subst hlx
    have ed : (fun j => if j = 1 then some l else q.d j) = q.d := by
      funext j; split
      · rename_i hh; rw [hh, x3]
      · rfl
    rw [ed] at w1
    refine ⟨l, { q with size := q.size - 1 }, ?_, hx, ?_, rfl⟩
    · simp only [pop, if_neg hs1, r0, r1, Res.bind_ok, w1]
      rw [percolateDown_last (q := { q with size := q.size - 1 }) (v := l) x3 (by simp; omega) (by simp; omega) xp]
      rfl
    · have hs2 : q.size = 2 := by omega
      have hM0 : M.erase l = [] := List.eq_nil_of_length_eq_zero (by rw [List.length_erase_of_mem hx]; omega)
      rw [hM0] at hlost ⊢
      refine ⟨by simp; omega, h.av2, h.stp, by simp [hs2], by simp, fun j h1 h2 => ?_, by simp, by simp, hlost, h.d1⟩
      simp only at h2; omega
  · have hlx : l ≠ x := fun hh => hl (by rw [← hh, e2])
    set q3 : Q P := { q with size := q.size - 1, d := fun j => if j = 1 then some l else q.d j } with hq3
    have hH : Hole q3 1 l (M.erase x) := by
      refine ⟨Nat.le_refl 1, by rw [hq3]; simp; omega, by rw [hq3]; simp; omega, h.stp, ?_, h.nd.erase x, (h.nd.mem_erase_iff).2 ⟨hlx, e3⟩, ?_, ?_⟩
      · rw [List.length_erase_of_mem hx, hq3]; simp; omega
      · intro j j1 j2 j3
        simp only [hq3] at j2
        obtain ⟨y, f1, f2, f3⟩ := h.el j j1 (by omega)
        refine ⟨y, by simp [hq3, j3, f1], f2, (h.nd.mem_erase_iff).2 ⟨fun hh => j3 (by rw [← f2, hh, xp]), f3⟩, fun hh => ?_⟩
        rw [hh] at f2; omega
      · intro y hy hyl
        obtain ⟨hyx, hyM⟩ := (h.nd.mem_erase_iff).1 hy
        obtain ⟨f1, f2, f3⟩ := h.sur y hyM
        have n1 : q.pos y ≠ 1 := fun hh => hyx (by rw [hh, x3] at f3; simpa using f3.symm)
        have n2 : q.pos y ≠ q.size - 1 := fun hh => hyl (by rw [hh, e1] at f3; simpa using f3.symm)
        exact ⟨f1, by simp only [hq3]; omega, n1, by simp [hq3, n1, f3]⟩
    obtain ⟨q', r, hi, hp⟩ := percolateDown_shape (q := q3) (by simp [hq3]) hH hsub hlost
    refine ⟨x, q', ?_, hx, hi, hp⟩
    simp only [pop, if_neg hs1, r0, r1, Res.bind_ok, w1, r]

end Verif.PQueue
