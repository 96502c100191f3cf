import Verif.Spec.PQueue
import Mathlib.Data.List.Nodup
import Mathlib.Order.Basic
/-! # The binary heap is a priority queue: proofs -/

namespace Verif.PQueue
open Verif.Spec

variable {P : Type} [LinearOrder P]

theorem left_eq (i : Nat) : left i = 2 * i := by simp [left, Nat.shiftLeft_eq, Nat.mul_comm]
theorem parent_eq (i : Nat) : parent i = i / 2 := by simp [parent, Nat.shiftRight_eq_div_pow]

/-- The array with the hole at `i` filled by `v`. -/
def at' (q : Q P) (i : Nat) (v : Node) (j : Nat) : Option Node := if j = i then some v else q.d j

/-- Everything but the order: all elements `M` are in their places, apart from `v` which belongs in the hole `i`. -/
structure Hole (q : Q P) (i : Nat) (v : Node) (M : List Node) : Prop where
  lo : 1 ≤ i
  hi : i < q.size
  av : q.size ≤ q.avail
  stp : 1 ≤ q.step
  len : M.length + 1 = q.size
  nd : M.Nodup
  vin : v ∈ M
  el : ∀ j, 1 ≤ j → j < q.size → j ≠ i → ∃ x, q.d j = some x ∧ q.pos x = j ∧ x ∈ M ∧ x ≠ v
  sur : ∀ x ∈ M, x ≠ v → 1 ≤ q.pos x ∧ q.pos x < q.size ∧ q.pos x ≠ i ∧ q.d (q.pos x) = some x

/-- parent of `j` not smaller than `j` -/
def Ok (q : Q P) (i : Nat) (v : Node) (j : Nat) : Prop :=
  ∀ x y, at' q i v (j / 2) = some x → at' q i v j = some y → q.pri y ≤ q.pri x

/-- grandparent over the hole not smaller than the children of the hole -/
def Gp (q : Q P) (i : Nat) (v : Node) : Prop :=
  2 ≤ i → ∀ j, j < q.size → j / 2 = i → ∀ x y, at' q i v (i / 2) = some x → at' q i v j = some y → q.pri y ≤ q.pri x

structure Up (q : Q P) (i : Nat) (v : Node) : Prop where
  ok : ∀ j, 2 ≤ j → j < q.size → j ≠ i → Ok q i v j
  gp : Gp q i v

structure Down (q : Q P) (i : Nat) (v : Node) : Prop where
  ok : ∀ j, 2 ≤ j → j < q.size → j / 2 ≠ i → Ok q i v j
  gp : Gp q i v

/-- The heap invariant. -/
structure Inv (q : Q P) (M : List Node) : Prop where
  av : q.size ≤ q.avail
  stp : 1 ≤ q.step
  len : M.length + 1 = q.size
  nd : M.Nodup
  el : ∀ j, 1 ≤ j → j < q.size → ∃ x, q.d j = some x ∧ q.pos x = j ∧ x ∈ M
  sur : ∀ x ∈ M, 1 ≤ q.pos x ∧ q.pos x < q.size ∧ q.d (q.pos x) = some x
  ord : ∀ j, 2 ≤ j → j < q.size → ∀ x y, q.d (j / 2) = some x → q.d j = some y → q.pri y ≤ q.pri x

theorem rd_ok {q : Q P} {i x} (h : i < q.avail) (hx : q.d i = some x) : rd q i = .ok x := by simp [rd, h, hx]
theorem wr_ok {q : Q P} {i x} (h : i < q.avail) : wr q i x = .ok { q with d := fun j => if j = i then some x else q.d j } := by
  simp [wr, h]

/-- filling the hole -/
def fill (q : Q P) (i : Nat) (v : Node) : Q P := setPos { q with d := fun j => if j = i then some v else q.d j } v i

theorem Hole.fill {q : Q P} {i v M} (h : Hole q i v M)
    (ho : ∀ j, 2 ≤ j → j < q.size → Ok q i v j) : Inv (fill q i v) M := by
  refine ⟨h.av, h.stp, h.len, h.nd, ?_, ?_, ?_⟩
  · intro j h1 h2
    by_cases hj : j = i
    · subst hj; exact ⟨v, by simp [PQueue.fill, setPos], by simp [PQueue.fill, setPos], h.vin⟩
    · obtain ⟨x, e1, e2, e3, e4⟩ := h.el j h1 h2 hj
      exact ⟨x, by simp [PQueue.fill, setPos, hj, e1], by simp [PQueue.fill, setPos, e4, e2], e3⟩
  · intro x hx
    by_cases hv : x = v
    · subst hv
      have := h.lo; have := h.hi
      simp [PQueue.fill, setPos]; omega
    · obtain ⟨e1, e2, e3, e4⟩ := h.sur x hx hv
      simp only [PQueue.fill, setPos, hv, if_false]
      exact ⟨e1, e2, by simp [e3, e4]⟩
  · intro j h1 h2 x y hx hy
    exact ho j h1 h2 x y hx hy

/-- moving the hole from `i` to `j`, whose element goes to `i` -/
def shift (q : Q P) (i : Nat) (x : Node) : Q P := setPos { q with d := fun j => if j = i then some x else q.d j } x i

theorem Hole.shift {q : Q P} {i v M} (h : Hole q i v M) {j x} (hj1 : 1 ≤ j) (hj2 : j < q.size) (hji : j ≠ i)
    (hx : q.d j = some x) : Hole (shift q i x) j v M ∧ ∀ k, at' (shift q i x) j v k = if k = j then some v else if k = i then some x else at' q i v k := by
  obtain ⟨x', e1, e2, e3, e4⟩ := h.el j hj1 hj2 hji
  rw [hx] at e1
  have : x = x' := by simpa using e1
  subst this
  refine ⟨⟨hj1, hj2, h.av, h.stp, h.len, h.nd, h.vin, ?_, ?_⟩, ?_⟩
  · intro k k1 k2 kj
    by_cases hk : k = i
    · subst hk; exact ⟨x, by simp [PQueue.shift, setPos], by simp [PQueue.shift, setPos], e3, e4⟩
    · obtain ⟨y, f1, f2, f3, f4⟩ := h.el k k1 k2 hk
      have : y ≠ x := fun hh => kj (by rw [← f2, hh, e2])
      exact ⟨y, by simp [PQueue.shift, setPos, hk, f1], by simp [PQueue.shift, setPos, this, f2], f3, f4⟩
  · intro y hy hyv
    by_cases hyx : y = x
    · subst hyx
      have := h.lo; have := h.hi
      simp only [PQueue.shift, setPos, if_true]
      exact ⟨by omega, by omega, Ne.symm hji, trivial⟩
    · obtain ⟨f1, f2, f3, f4⟩ := h.sur y hy hyv
      simp only [PQueue.shift, setPos, hyx, if_false]
      refine ⟨f1, f2, fun hh => ?_, by simp [f3, f4]⟩
      rw [hh, hx] at f4
      exact hyx (by simpa using f4.symm)
  · intro k
    simp only [at', PQueue.shift, setPos]
    split_ifs <;> rfl

theorem at_some {q : Q P} {i v M} (h : Hole q i v M) {j} (h1 : 1 ≤ j) (h2 : j < q.size) : ∃ x, at' q i v j = some x := by
  by_cases hj : j = i
  · exact ⟨v, by simp [at', hj]⟩
  · obtain ⟨x, e, _⟩ := h.el j h1 h2 hj
    exact ⟨x, by simp [at', hj, e]⟩

/-! ## bubble_up -/

theorem bubbleLoop_spec {v : Node} {M : List Node} : ∀ (k : Nat) (q : Q P) (i : Nat), i < k → Hole q i v M → Up q i v →
    ∃ q' i', bubbleLoop (q.pri v) k q i = .ok (q', i') ∧ Hole q' i' v M ∧ q'.pri = q.pri ∧ q'.size = q.size ∧
      (∀ j, 2 ≤ j → j < q'.size → Ok q' i' v j)
  | 0, q, i, hk, _, _ => by omega
  | k + 1, q, i, hk, h, hu => by
    by_cases hi : i > 1
    · have hp1 : 1 ≤ i / 2 := by omega
      have hp2 : i / 2 < q.size := by have := h.hi; omega
      have hpi : i / 2 ≠ i := by omega
      obtain ⟨x, e1, e2, e3, e4⟩ := h.el (i / 2) hp1 hp2 hpi
      have hrd : rd q (i / 2) = .ok x := rd_ok (Nat.lt_of_lt_of_le hp2 h.av) e1
      have hax : at' q i v (i / 2) = some x := by simp [at', hpi, e1]
      have hai : at' q i v i = some v := by simp [at']
      by_cases hlt : q.pri x < q.pri v
      · have hwr := wr_ok (q := q) (i := i) (x := x) (Nat.lt_of_lt_of_le h.hi h.av)
        obtain ⟨hs, hat⟩ := h.shift hp1 hp2 hpi e1
        have hat_i : at' (shift q i x) (i / 2) v i = some x := by rw [hat]; simp [Ne.symm hpi]
        have hat_p : at' (shift q i x) (i / 2) v (i / 2) = some v := by rw [hat]; simp
        have hat_o : ∀ j, j ≠ i → j ≠ i / 2 → at' (shift q i x) (i / 2) v j = at' q i v j := by
          intro j h1 h2; rw [hat]; simp [h1, h2]
        have hpri : (shift q i x).pri = q.pri := rfl
        have hsz : (shift q i x).size = q.size := rfl
        have hu' : Up (shift q i x) (i / 2) v := by
          constructor
          · intro j j1 j2 j3
            rw [hsz] at j2
            intro a b ha hb
            rw [hpri]
            by_cases hji : j = i
            · subst hji
              rw [hat_p] at ha; rw [hat_i] at hb
              cases ha; cases hb
              exact hlt.le
            · rw [hat_o j hji j3] at hb
              by_cases hjp : j / 2 = i / 2
              · rw [hjp, hat_p] at ha
                cases ha
                exact (hu.ok j j1 j2 hji x b (by rw [hjp]; exact hax) hb).trans hlt.le
              · by_cases hjc : j / 2 = i
                · rw [hjc, hat_i] at ha
                  cases ha
                  exact hu.gp hi j j2 hjc x b hax hb
                · rw [hat_o _ hjc hjp] at ha
                  exact hu.ok j j1 j2 hji a b ha hb
          · intro g j j2 j3 a b ha hb
            rw [hsz] at j2
            rw [hpri]
            rw [hat_o _ (by omega) (by omega)] at ha
            have hpa : q.pri x ≤ q.pri a := hu.ok (i / 2) g hp2 hpi a x ha hax
            by_cases hji : j = i
            · subst hji; rw [hat_i] at hb; cases hb; exact hpa
            · rw [hat_o j hji (by omega)] at hb
              exact (hu.ok j (by omega) j2 hji x b (by rw [j3]; exact hax) hb).trans hpa
        obtain ⟨q', i', r, h', hp', hs', ho'⟩ := bubbleLoop_spec k (shift q i x) (i / 2) (by omega) hs hu'
        refine ⟨q', i', ?_, h', hp', hs', ho'⟩
        simp only [bubbleLoop, parent_eq, if_pos hi, hrd, Res.bind_ok, if_pos hlt, hwr]
        exact r
      · refine ⟨q, i, by simp only [bubbleLoop, parent_eq, if_pos hi, hrd, Res.bind_ok, if_neg hlt], h, rfl, rfl, ?_⟩
        intro j j1 j2
        by_cases hji : j = i
        · subst hji
          intro a b ha hb
          rw [hax] at ha; rw [hai] at hb; cases ha; cases hb
          exact not_lt.1 hlt
        · exact hu.ok j j1 j2 hji
    · refine ⟨q, i, by simp only [bubbleLoop, if_neg hi], h, rfl, rfl, ?_⟩
      intro j j1 j2
      exact hu.ok j j1 j2 (by have := h.lo; omega)

theorem bubbleUp_spec {q : Q P} {i : Nat} {v : Node} {M : List Node} (hd : q.d i = some v) (h : Hole q i v M) (hu : Up q i v) :
    ∃ q', bubbleUp q i = .ok q' ∧ Inv q' M ∧ q'.pri = q.pri ∧ q'.size = q.size := by
  obtain ⟨q', i', r, h', hp, hs, ho⟩ := bubbleLoop_spec (i + 1) q i (by omega) h hu
  refine ⟨fill q' i' v, ?_, h'.fill ho, hp, hs⟩
  simp only [bubbleUp, rd_ok (Nat.lt_of_lt_of_le h.hi h.av) hd, Res.bind_ok, r,
    wr_ok (Nat.lt_of_lt_of_le h'.hi h'.av)]
  rfl

/-! ## percolate_down -/

theorem maxchild_none {q : Q P} {i} (h : q.size ≤ 2 * i) : maxchild q i = .ok 0 := by simp [maxchild, left_eq, h]

theorem maxchild_some {q : Q P} {i v M} (h : Hole q i v M) (hc : 2 * i < q.size) :
    ∃ c y, maxchild q i = .ok c ∧ c / 2 = i ∧ 2 ≤ c ∧ c < q.size ∧ c ≠ i ∧ q.d c = some y ∧
      ∀ j, 2 ≤ j → j < q.size → j / 2 = i → ∀ z, q.d j = some z → q.pri z ≤ q.pri y := by
  have hlo := h.lo
  obtain ⟨x, e1, _⟩ := h.el (2 * i) (by omega) hc (by omega)
  have r1 := rd_ok (Nat.lt_of_lt_of_le hc h.av) e1
  have hcase : ∀ j, j / 2 = i → j = 2 * i ∨ j = 2 * i + 1 := by intro j hj; omega
  by_cases hc2 : 2 * i + 1 < q.size
  · obtain ⟨y, f1, _⟩ := h.el (2 * i + 1) (by omega) hc2 (by omega)
    have r2 := rd_ok (Nat.lt_of_lt_of_le hc2 h.av) f1
    by_cases hlt : q.pri x < q.pri y
    · refine ⟨2 * i + 1, y, ?_, by omega, by omega, hc2, by omega, f1, ?_⟩
      · simp only [maxchild, left_eq, if_neg (Nat.not_le.2 hc), if_pos hc2, r1, r2, Res.bind_ok, if_pos hlt, ge_iff_le]
      · intro j _ _ hj z hz
        rcases hcase j hj with rfl | rfl
        · rw [e1] at hz; cases hz; exact hlt.le
        · rw [f1] at hz; cases hz; exact le_refl _
    · refine ⟨2 * i, x, ?_, by omega, by omega, hc, by omega, e1, ?_⟩
      · simp only [maxchild, left_eq, if_neg (Nat.not_le.2 hc), if_pos hc2, r1, r2, Res.bind_ok, if_neg hlt, ge_iff_le]
      · intro j _ _ hj z hz
        rcases hcase j hj with rfl | rfl
        · rw [e1] at hz; cases hz; exact le_refl _
        · rw [f1] at hz; cases hz; exact not_lt.1 hlt
  · refine ⟨2 * i, x, ?_, by omega, by omega, hc, by omega, e1, ?_⟩
    · simp only [maxchild, left_eq, if_neg (Nat.not_le.2 hc), if_neg hc2, ge_iff_le]
    · intro j _ hj2 hj z hz
      rcases hcase j hj with rfl | rfl
      · rw [e1] at hz; cases hz; exact le_refl _
      · omega

theorem percLoop_spec {v : Node} {M : List Node} : ∀ (k : Nat) (q : Q P) (i : Nat), q.size ≤ k + i → Hole q i v M → Down q i v →
    ∃ q' i', percLoop (q.pri v) k q i = .ok (q', i') ∧ Hole q' i' v M ∧ q'.pri = q.pri ∧ q'.size = q.size ∧
      (∀ j, 2 ≤ j → j < q'.size → Ok q' i' v j)
  | 0, q, i, hk, h, _ => by have := h.hi; omega
  | k + 1, q, i, hk, h, hu => by
    have hai : at' q i v i = some v := by simp [at']
    by_cases hc : 2 * i < q.size
    · obtain ⟨c, y, m1, m2, m3, m4, m5, m6, m7⟩ := maxchild_some h hc
      have hrd : rd q c = .ok y := rd_ok (Nat.lt_of_lt_of_le m4 h.av) m6
      have hac : at' q i v c = some y := by simp [at', m5, m6]
      have hc0 : c ≠ 0 := by omega
      have hmax : ∀ j, 2 ≤ j → j < q.size → j / 2 = i → ∀ z, at' q i v j = some z → q.pri z ≤ q.pri y := by
        intro j j1 j2 j3 z hz
        have : j ≠ i := by omega
        simp only [at', this, if_false] at hz
        exact m7 j j1 j2 j3 z hz
      by_cases hlt : q.pri v < q.pri y
      · have hwr := wr_ok (q := q) (i := i) (x := y) (Nat.lt_of_lt_of_le h.hi h.av)
        obtain ⟨hs, hat⟩ := h.shift (by omega) m4 m5 m6
        have hat_i : at' (shift q i y) c v i = some y := by rw [hat]; simp [Ne.symm m5]
        have hat_c : at' (shift q i y) c v c = some v := by rw [hat]; simp
        have hat_o : ∀ j, j ≠ i → j ≠ c → at' (shift q i y) c v j = at' q i v j := by
          intro j h1 h2; rw [hat]; simp [h1, h2]
        have hpri : (shift q i y).pri = q.pri := rfl
        have hsz : (shift q i y).size = q.size := rfl
        have hu' : Down (shift q i y) c v := by
          constructor
          · intro j j1 j2 j3 a b ha hb
            rw [hsz] at j2
            rw [hpri]
            by_cases hjc : j = c
            · subst hjc
              rw [m2, hat_i] at ha; rw [hat_c] at hb; cases ha; cases hb; exact hlt.le
            · by_cases hji : j = i
              · subst hji
                rw [hat_i] at hb; cases hb
                rw [hat_o _ (by omega) (by omega)] at ha
                exact hu.gp j1 c m4 m2 a _ ha hac
              · rw [hat_o j hji hjc] at hb
                by_cases hj2 : j / 2 = i
                · rw [hj2, hat_i] at ha; cases ha
                  exact hmax j j1 j2 hj2 b hb
                · rw [hat_o _ hj2 j3] at ha
                  exact hu.ok j j1 j2 hj2 a b ha hb
          · intro g j j2 j3 a b ha hb
            rw [hsz] at j2
            rw [hpri]
            rw [m2, hat_i] at ha; cases ha
            rw [hat_o j (by omega) (by omega)] at hb
            exact hu.ok j (by omega) j2 (by omega) y b (by rw [j3]; exact hac) hb
        obtain ⟨q', i', r, h', hp', hs', ho'⟩ := percLoop_spec k (shift q i y) c (by rw [hsz]; omega) hs hu'
        refine ⟨q', i', ?_, h', hp', hs', ho'⟩
        simp only [percLoop, m1, Res.bind_ok, if_neg hc0, hrd, if_pos hlt, hwr]
        exact r
      · refine ⟨q, i, by simp only [percLoop, m1, Res.bind_ok, if_neg hc0, hrd, if_neg hlt], h, rfl, rfl, ?_⟩
        intro j j1 j2
        by_cases hj : j / 2 = i
        · intro a b ha hb
          rw [hj, hai] at ha; cases ha
          exact (hmax j j1 j2 hj b hb).trans (not_lt.1 hlt)
        · exact hu.ok j j1 j2 hj
    · refine ⟨q, i, by simp only [percLoop, maxchild_none (Nat.not_lt.1 hc), Res.bind_ok, if_true], h, rfl, rfl, ?_⟩
      intro j j1 j2
      exact hu.ok j j1 j2 (by omega)

theorem percolateDown_spec {q : Q P} {i : Nat} {v : Node} {M : List Node} (hd : q.d i = some v) (h : Hole q i v M) (hu : Down q i v) :
    ∃ q', percolateDown q i = .ok q' ∧ Inv q' M ∧ q'.pri = q.pri ∧ q'.size = q.size := by
  obtain ⟨q', i', r, h', hp, hs, ho⟩ := percLoop_spec (q.size + 1) q i (by omega) h hu
  refine ⟨fill q' i' v, ?_, h'.fill ho, hp, hs⟩
  simp only [percolateDown, rd_ok (Nat.lt_of_lt_of_le h.hi h.av) hd, Res.bind_ok, r,
    wr_ok (Nat.lt_of_lt_of_le h'.hi h'.av)]
  rfl

/-- on the slot just behind the heap nothing happens -/
theorem percolateDown_last {q : Q P} {i : Nat} {v : Node} (hd : q.d i = some v) (hs : q.size ≤ i) (ha : i < q.avail) (hp : q.pos v = i) :
    percolateDown q i = .ok q := by
  simp only [percolateDown, rd_ok ha hd, Res.bind_ok, percLoop, maxchild_none (q := q) (i := i) (by omega), if_true, wr_ok ha]
  simp only [setPos, Except.ok.injEq]
  have e1 : (fun j => if j = i then some v else q.d j) = q.d := by funext j; split <;> simp_all
  have e2 : (fun y => if y = v then i else q.pos y) = q.pos := by funext y; split <;> simp_all
  rw [e1, e2]

/-! ## The operations -/

theorem Inv.hole {q : Q P} {M} (h : Inv q M) {x} (hx : x ∈ M) : Hole q (q.pos x) x M := by
  obtain ⟨p1, p2, p3⟩ := h.sur x hx
  refine ⟨p1, p2, h.av, h.stp, h.len, h.nd, hx, ?_, ?_⟩
  · intro j j1 j2 j3
    obtain ⟨y, e1, e2, e3⟩ := h.el j j1 j2
    exact ⟨y, e1, e2, e3, fun hh => j3 (by rw [← e2, hh])⟩
  · intro y hy hyx
    obtain ⟨f1, f2, f3⟩ := h.sur y hy
    refine ⟨f1, f2, fun hh => hyx ?_, f3⟩
    rw [hh, p3] at f3; simpa using f3.symm

theorem Inv.setPri_out {q : Q P} {M} (h : Inv q M) {x} (hx : x ∉ M) (p) : Inv (setPri q x p) M := by
  refine ⟨h.av, h.stp, h.len, h.nd, h.el, h.sur, ?_⟩
  intro j j1 j2 a b ha hb
  obtain ⟨a', e1, _, e3⟩ := h.el (j / 2) (by omega) (by have : j < q.size := j2; omega)
  obtain ⟨b', f1, _, f3⟩ := h.el j (by omega) j2
  have ha' : q.d (j / 2) = some a := ha
  have hb' : q.d j = some b := hb
  rw [e1] at ha'; rw [f1] at hb'
  cases ha'; cases hb'
  have n1 : a ≠ x := fun hh => hx (hh ▸ e3)
  have n2 : b ≠ x := fun hh => hx (hh ▸ f3)
  simp only [setPri, n1, n2, if_false]
  exact h.ord j j1 j2 a b e1 f1

theorem insert_spec {q : Q P} {M} (h : Inv q M) {x} (hx : x ∉ M) :
    ∃ q', insert q x = .ok q' ∧ Inv q' (x :: M) ∧ q'.pri = q.pri := by
  set q1 : Q P := if q.size ≥ q.avail then { q with avail := q.size + q.step } else q with hq1
  have e_d : q1.d = q.d := by rw [hq1]; split <;> rfl
  have e_s : q1.size = q.size := by rw [hq1]; split <;> rfl
  have e_st : q1.step = q.step := by rw [hq1]; split <;> rfl
  have e_p : q1.pri = q.pri := by rw [hq1]; split <;> rfl
  have e_o : q1.pos = q.pos := by rw [hq1]; split <;> rfl
  have hav : q.size < q1.avail := by
    rw [hq1]; have := h.stp
    split
    · simp; omega
    · omega
  have hsz : 1 ≤ q.size := by have := h.len; omega
  set q2 : Q P := { q1 with size := q1.size + 1 } with hq2
  have hwr : wr q2 q1.size x = .ok { q2 with d := fun j => if j = q1.size then some x else q2.d j } := wr_ok (by rw [hq2]; simpa [e_s] using hav)
  set q3 : Q P := { q2 with d := fun j => if j = q1.size then some x else q2.d j } with hq3
  have d3 : ∀ j, q3.d j = if j = q.size then some x else q.d j := by intro j; simp [hq3, hq2, e_d, e_s]
  have s3 : q3.size = q.size + 1 := by simp [hq3, hq2, e_s]
  have p3 : q3.pri = q.pri := by simp [hq3, hq2, e_p]
  have o3 : q3.pos = q.pos := by simp [hq3, hq2, e_o]
  have hH : Hole q3 q.size x (x :: M) := by
    refine ⟨hsz, by rw [s3]; omega, by rw [s3]; simp [hq3, hq2]; omega, by simpa [hq3, hq2, e_st] using h.stp, by rw [s3]; simp; have := h.len; omega,
      by simpa using ⟨hx, h.nd⟩, by simp, ?_, ?_⟩
    · intro j j1 j2 j3
      rw [s3] at j2
      obtain ⟨y, f1, f2, f3⟩ := h.el j j1 (by omega)
      exact ⟨y, by rw [d3, if_neg j3, f1], by rw [o3, f2], by simp [f3], fun hh => hx (hh ▸ f3)⟩
    · intro y hy hyx
      have hyM : y ∈ M := by simpa [hyx] using hy
      obtain ⟨f1, f2, f3⟩ := h.sur y hyM
      rw [o3, s3, d3]
      exact ⟨f1, by omega, by omega, by rw [if_neg (by omega), f3]⟩
  have hat : ∀ j, at' q3 q.size x j = q3.d j := by
    intro j; rw [at', d3]; split <;> rfl
  have hU : Up q3 q.size x := by
    constructor
    · intro j j1 j2 j3 a b ha hb
      rw [s3] at j2
      rw [hat, d3, if_neg (by omega)] at ha hb
      rw [p3]
      exact h.ord j j1 (by omega) a b ha hb
    · intro g j j2 j3
      rw [s3] at j2
      omega
  obtain ⟨q', r, hi, hp, _⟩ := bubbleUp_spec (by rw [d3, if_pos rfl]) hH hU
  refine ⟨q', ?_, hi, hp.trans p3⟩
  simp only [insert]
  rw [← hq1, ← hq2, hwr]
  simp only [Res.bind_ok]
  rw [e_s]
  exact r

theorem changePriority_spec {q : Q P} {M} (h : Inv q M) {x} (hx : x ∈ M) (p : P) :
    ∃ q', changePriority q p x = .ok q' ∧ Inv q' M ∧ q'.pri = (setPri q x p).pri := by
  have hh := h.hole hx
  obtain ⟨x1, x2, x3⟩ := h.sur x hx
  have hH : Hole (setPri q x p) (q.pos x) x M := ⟨hh.lo, hh.hi, hh.av, hh.stp, hh.len, hh.nd, hh.vin, hh.el, hh.sur⟩
  have hat : ∀ j, at' (setPri q x p) (q.pos x) x j = q.d j := by
    intro j; simp only [at', setPri]; split
    · rename_i e; rw [e, x3]
    · rfl
  have hpx : (setPri q x p).pri x = p := by simp [setPri]
  have hpo : ∀ j y, 1 ≤ j → j < q.size → j ≠ q.pos x → q.d j = some y → (setPri q x p).pri y = q.pri y := by
    intro j y j1 j2 j3 hy
    obtain ⟨z, e1, e2, _⟩ := h.el j j1 j2
    rw [hy] at e1; cases e1
    have : y ≠ x := fun hh => j3 (by rw [← e2, hh])
    simp [setPri, this]
  have hgp : Gp (setPri q x p) (q.pos x) x := by
    intro g j j2 j3 a b ha hb
    have j2 : j < q.size := j2
    rw [hat] at ha hb
    rw [hpo _ b (by omega) j2 (by omega) hb, hpo _ a (by omega) (by omega) (by omega) ha]
    exact (h.ord j (by omega) j2 x b (by rw [j3, x3]) hb).trans (h.ord (q.pos x) g x2 a x ha x3)
  by_cases hlt : q.pri x < p
  · have hU : Up (setPri q x p) (q.pos x) x := by
      refine ⟨?_, hgp⟩
      intro j j1 j2 j3 a b ha hb
      have j2 : j < q.size := j2
      rw [hat] at ha hb
      rw [hpo j b (by omega) j2 j3 hb]
      by_cases hj : j / 2 = q.pos x
      · rw [hj, x3] at ha; cases ha
        rw [hpx]
        exact (h.ord j j1 j2 x b (by rw [hj, x3]) hb).trans hlt.le
      · rw [hpo _ a (by omega) (by omega) hj ha]
        exact h.ord j j1 j2 a b ha hb
    obtain ⟨q', r, hi, hp, _⟩ := bubbleUp_spec (q := setPri q x p) x3 hH hU
    exact ⟨q', by simp only [changePriority, if_pos hlt]; exact r, hi, hp⟩
  · have hU : Down (setPri q x p) (q.pos x) x := by
      refine ⟨?_, hgp⟩
      intro j j1 j2 j3 a b ha hb
      have j2 : j < q.size := j2
      rw [hat] at ha hb
      rw [hpo _ a (by omega) (by omega) j3 ha]
      by_cases hj : j = q.pos x
      · subst hj; rw [x3] at hb; cases hb
        rw [hpx]
        exact (not_lt.1 hlt).trans (h.ord _ j1 j2 a x ha x3)
      · rw [hpo j b (by omega) j2 hj hb]
        exact h.ord j j1 j2 a b ha hb
    obtain ⟨q', r, hi, hp, _⟩ := percolateDown_spec (q := setPri q x p) x3 hH hU
    exact ⟨q', by simp only [changePriority, if_neg hlt]; exact r, hi, hp⟩

/-- dropping the last slot when it holds the element to remove -/
theorem Inv.dropLast {q : Q P} {M} (h : Inv q M) {x} (hx : x ∈ M) (hl : q.pos x = q.size - 1) :
    Inv { q with size := q.size - 1 } (M.erase x) := by
  obtain ⟨x1, x2, x3⟩ := h.sur x hx
  refine ⟨by have := h.av; simp; omega, h.stp, ?_, h.nd.erase x, ?_, ?_, ?_⟩
  · rw [List.length_erase_of_mem hx]; have := h.len; have := List.length_pos_of_mem hx; simp; omega
  · intro j j1 j2
    simp only at j2
    obtain ⟨y, e1, e2, e3⟩ := h.el j j1 (by omega)
    refine ⟨y, e1, e2, (h.nd.mem_erase_iff).2 ⟨fun hh => ?_, e3⟩⟩
    rw [hh] at e2; omega
  · intro y hy
    obtain ⟨hne, hyM⟩ := (h.nd.mem_erase_iff).1 hy
    obtain ⟨f1, f2, f3⟩ := h.sur y hyM
    refine ⟨f1, ?_, f3⟩
    simp only
    have : q.pos y ≠ q.pos x := fun hh => hne (by rw [hh, x3] at f3; simpa using f3.symm)
    omega
  · intro j j1 j2
    simp only at j2
    exact h.ord j j1 (by omega)

/-- the state in which the last element `l` is to be re-seated at the place of `x` -/
theorem reseat {q : Q P} {M} (h : Inv q M) {x l} (hx : x ∈ M) (hl : q.d (q.size - 1) = some l) (hne : q.pos x ≠ q.size - 1) :
    ∃ q3 : Q P, q3 = { q with size := q.size - 1, d := fun j => if j = q.pos x then some l else q.d j } ∧
      Hole q3 (q.pos x) l (M.erase x) ∧ (∀ j, at' q3 (q.pos x) l j = if j = q.pos x then some l else q.d j) ∧
      Gp q3 (q.pos x) l ∧ l ∈ M ∧ l ≠ x := by
  obtain ⟨x1, x2, x3⟩ := h.sur x hx
  obtain ⟨l', e1, e2, e3⟩ := h.el (q.size - 1) (by omega) (by omega)
  rw [hl] at e1; cases e1
  have hlx : l ≠ x := fun hh => hne (by rw [← hh, e2])
  have hat : ∀ j, at' { q with size := q.size - 1, d := fun j => if j = q.pos x then some l else q.d j } (q.pos x) l j = if j = q.pos x then some l else q.d j := by
    intro j; simp only [at']; split <;> rfl
  refine ⟨_, rfl, ?_, hat, ?_, e3, hlx⟩
  · refine ⟨x1, by simp; omega, by have := h.av; simp; omega, h.stp, ?_, h.nd.erase x, (h.nd.mem_erase_iff).2 ⟨hlx, e3⟩, ?_, ?_⟩
    · rw [List.length_erase_of_mem hx]; have := h.len; have := List.length_pos_of_mem hx; simp; omega
    · intro j j1 j2 j3
      simp only at j2
      obtain ⟨y, f1, f2, f3⟩ := h.el j j1 (by omega)
      refine ⟨y, by simp [j3, f1], f2, (h.nd.mem_erase_iff).2 ⟨fun hh => j3 (by rw [← f2, hh]), f3⟩, fun hh => ?_⟩
      rw [hh] at f2; omega
    · intro y hy hyl
      obtain ⟨hyx, hyM⟩ := (h.nd.mem_erase_iff).1 hy
      obtain ⟨f1, f2, f3⟩ := h.sur y hyM
      have n1 : q.pos y ≠ q.pos x := fun hh => hyx (by rw [hh, x3] at f3; simpa using f3.symm)
      have n2 : q.pos y ≠ q.size - 1 := fun hh => hyl (by rw [hh, hl] at f3; simpa using f3.symm)
      exact ⟨f1, by simp only; omega, n1, by simp [n1, f3]⟩
  · intro g j j2 j3 a b ha hb
    simp only at j2
    rw [hat, if_neg (by omega)] at ha hb
    exact (h.ord j (by omega) (by omega) x b (by rw [j3, x3]) hb).trans (h.ord (q.pos x) g x2 a x ha x3)

theorem remove_spec {q : Q P} {M} (h : Inv q M) {x} (hx : x ∈ M) :
    ∃ q', remove q x = .ok q' ∧ Inv q' (M.erase x) ∧ q'.pri = q.pri := by
  obtain ⟨x1, x2, x3⟩ := h.sur x hx
  obtain ⟨l, e1, e2, e3⟩ := h.el (q.size - 1) (by omega) (by omega)
  have hav := h.av
  have r1 : rd { q with size := q.size - 1 } (q.size - 1) = .ok l := rd_ok (by simp; omega) e1
  have w1 : wr { q with size := q.size - 1 } (q.pos x) l = .ok { q with size := q.size - 1, d := fun j => if j = q.pos x then some l else q.d j } :=
    wr_ok (by simp; omega)
  have r2 : rd { q with size := q.size - 1, d := fun j => if j = q.pos x then some l else q.d j } (q.pos x) = .ok l :=
    rd_ok (by simp; omega) (by simp)
  by_cases hl : q.pos x = q.size - 1
  · have hlx : l = x := by rw [← hl, x3] at e1; simpa using e1.symm
    subst hlx
    have ed : (fun j => if j = q.pos l then some l else q.d j) = q.d := by
      funext j; split
      · rename_i hh; rw [hh, x3]
      · rfl
    rw [ed] at w1 r2
    refine ⟨{ q with size := q.size - 1 }, ?_, h.dropLast hx hl, rfl⟩
    simp only [remove, r1, Res.bind_ok, w1, r2, lt_irrefl, if_false]
    exact percolateDown_last x3 (by simp; omega) (by simp; omega) rfl
  · obtain ⟨q3, hq3, hH, hat, hgp, hlM, hlx⟩ := reseat h hx e1 hl
    have p3 : q3.pri = q.pri := by rw [hq3]
    have s3 : q3.size = q.size - 1 := by rw [hq3]
    have d3 : q3.d (q.pos x) = some l := by rw [hq3]; simp
    rw [← hq3] at w1 r2
    by_cases hlt : q.pri x < q.pri l
    · have hU : Up q3 (q.pos x) l := by
        refine ⟨?_, hgp⟩
        intro j j1 j2 j3 a b ha hb
        rw [s3] at j2
        rw [hat] at ha hb
        rw [if_neg j3] at hb
        rw [p3]
        by_cases hj : j / 2 = q.pos x
        · rw [if_pos hj] at ha; cases ha
          exact (h.ord j j1 (by omega) x b (by rw [hj, x3]) hb).trans hlt.le
        · rw [if_neg hj] at ha
          exact h.ord j j1 (by omega) a b ha hb
      obtain ⟨q', r, hi, hp, _⟩ := bubbleUp_spec d3 hH hU
      refine ⟨q', ?_, hi, hp.trans p3⟩
      simp only [remove, r1, Res.bind_ok, w1, r2, p3, if_pos hlt, r]
    · have hU : Down q3 (q.pos x) l := by
        refine ⟨?_, hgp⟩
        intro j j1 j2 j3 a b ha hb
        rw [s3] at j2
        rw [hat] at ha hb
        rw [if_neg j3] at ha
        rw [p3]
        by_cases hj : j = q.pos x
        · subst hj; rw [if_pos rfl] at hb; cases hb
          exact (not_lt.1 hlt).trans (h.ord _ j1 (by omega) a x ha x3)
        · rw [if_neg hj] at hb
          exact h.ord j j1 (by omega) a b ha hb
      obtain ⟨q', r, hi, hp, _⟩ := percolateDown_spec d3 hH hU
      refine ⟨q', ?_, hi, hp.trans p3⟩
      simp only [remove, r1, Res.bind_ok, w1, r2, p3, if_neg hlt, r]

/-- the root is largest -/
theorem Inv.top {q : Q P} {M} (h : Inv q M) {x} (hx : q.d 1 = some x) : ∀ y ∈ M, q.pri y ≤ q.pri x := by
  have key : ∀ j, 1 ≤ j → j < q.size → ∀ y, q.d j = some y → q.pri y ≤ q.pri x := by
    intro j
    induction j using Nat.strongRecOn with
    | _ j ih =>
      intro j1 j2 y hy
      by_cases hj : j = 1
      · subst hj; rw [hx] at hy; cases hy; exact le_refl _
      · obtain ⟨z, e1, _⟩ := h.el (j / 2) (by omega) (by omega)
        exact (h.ord j (by omega) j2 z y e1 hy).trans (ih (j / 2) (by omega) (by omega) (by omega) z e1)
  intro y hy
  obtain ⟨f1, f2, f3⟩ := h.sur y hy
  exact key _ f1 f2 y f3

theorem pop_spec {q : Q P} {M} (h : Inv q M) (hne : M ≠ []) :
    ∃ x q', pop q = .ok (some x, q') ∧ x ∈ M ∧ (∀ y ∈ M, q.pri y ≤ q.pri x) ∧ Inv q' (M.erase x) ∧ q'.pri = q.pri ∧ peek q = .ok (some x) := by
  have hlen := h.len
  have hpos : 0 < M.length := List.length_pos_of_ne_nil hne
  obtain ⟨x, x3, xp, hx⟩ := h.el 1 (Nat.le_refl _) (by omega)
  obtain ⟨l, e1, e2, e3⟩ := h.el (q.size - 1) (by omega) (by omega)
  have hav := h.av
  have hs1 : q.size ≠ 1 := by omega
  have r0 : rd q 1 = .ok x := rd_ok (by omega) x3
  have r1 : rd { q with size := q.size - 1 } (q.size - 1) = .ok l := rd_ok (by simp; omega) e1
  have w1 : wr { q with size := q.size - 1 } 1 l = .ok { q with size := q.size - 1, d := fun j => if j = 1 then some l else q.d j } :=
    wr_ok (by simp; omega)
  have hpk : peek q = .ok (some x) := by simp only [peek, if_neg hs1, r0, Res.bind_ok]
  have htop := h.top x3
  by_cases hl : q.pos x = q.size - 1
  · have hlx : l = x := by rw [← hl, xp, x3] at e1; simpa using e1.symm
    subst hlx
    have ed : (fun j => if j = 1 then some l else q.d j) = q.d := by
      funext j; split
      · rename_i hh; rw [hh, x3]
      · rfl
    rw [ed] at w1
    refine ⟨l, { q with size := q.size - 1 }, ?_, hx, htop, h.dropLast hx hl, rfl, hpk⟩
    simp only [pop, if_neg hs1, r0, r1, Res.bind_ok, w1]
    rw [percolateDown_last (q := { q with size := q.size - 1 }) (v := l) x3 (by simp; omega) (by simp; omega) xp]
    rfl
  · obtain ⟨q3, hq3, hH, hat, hgp, hlM, hlx⟩ := reseat h hx e1 hl
    rw [xp] at hq3 hH hat hgp
    have p3 : q3.pri = q.pri := by rw [hq3]
    have s3 : q3.size = q.size - 1 := by rw [hq3]
    have d3 : q3.d 1 = some l := by rw [hq3]; simp
    rw [← hq3] at w1
    have hU : Down q3 1 l := by
      refine ⟨?_, hgp⟩
      intro j j1 j2 j3 a b ha hb
      rw [s3] at j2
      rw [hat, if_neg j3] at ha
      rw [hat, if_neg (by omega)] at hb
      rw [p3]
      exact h.ord j j1 (by omega) a b ha hb
    obtain ⟨q', r, hi, hp, _⟩ := percolateDown_spec d3 hH hU
    refine ⟨x, q', ?_, hx, htop, hi, hp.trans p3, hpk⟩
    simp only [pop, if_neg hs1, r0, r1, Res.bind_ok, w1, r]

theorem init_inv (n) (pri : Node → P) (pos) : Inv (init n pri pos) [] :=
  ⟨by simp [init], by simp [init], rfl, by simp, fun j h1 h2 => by simp [init] at h2; omega, fun x hx => by simp at hx,
    fun j h1 h2 => by simp [init] at h2; omega⟩

/-! ## Bags -/

structure Rel (q : Q P) (b : Bag P) : Prop where
  inv : Inv q (b.map Prod.fst)
  pri : ∀ e ∈ b, q.pri e.1 = e.2

theorem without_fst {b : Bag P} (hn : (b.map Prod.fst).Nodup) (x) : (b.without x).map Prod.fst = (b.map Prod.fst).erase x := by
  rw [hn.erase_eq_filter, Bag.without]
  induction b with
  | nil => rfl
  | cons e b ih =>
    simp only [List.map_cons, List.nodup_cons] at hn
    by_cases h : e.1 = x
    · simp only [List.filter_cons, h, List.map_cons, ne_eq, not_true, decide_false, bne_self_eq_false]
      exact ih hn.2
    · simp only [List.filter_cons, List.map_cons, ne_eq, h, not_false_eq_true, decide_true, if_true, bne_iff_ne]
      rw [ih hn.2]

theorem Rel.nd {q : Q P} {b} (h : Rel q b) : (b.map Prod.fst).Nodup := h.inv.nd

theorem Rel.top {q : Q P} {b} (h : Rel q b) {x} (hx : x ∈ b.map Prod.fst) (ht : ∀ y ∈ b.map Prod.fst, q.pri y ≤ q.pri x) : b.IsTop x := by
  obtain ⟨e, he, rfl⟩ := List.mem_map.1 hx
  refine ⟨e.2, he, fun f hf => ?_⟩
  rw [← h.pri f hf, ← h.pri e he]
  exact ht _ (List.mem_map_of_mem hf)

theorem exec_spec {q : Q P} {b : Bag P} (h : Rel q b) (op : POp P) (ho : op.allowed b) :
    ∃ out q' b', op.exec q = .ok (out, q') ∧ op.does b out b' ∧ Rel q' b' := by
  cases op with
  | insert x p =>
    obtain ⟨q', r, hi, hp⟩ := insert_spec (h.inv.setPri_out ho p) ho
    refine ⟨none, q', (x, p) :: b, by simp only [POp.exec, r, Res.bind_ok], ⟨rfl, rfl⟩, hi, ?_⟩
    intro e he
    rw [hp]
    rcases List.mem_cons.1 he with rfl | he
    · simp [setPri]
    · have : e.1 ≠ x := fun hh => ho (hh ▸ List.mem_map_of_mem he)
      simp [setPri, this, h.pri e he]
  | change x p =>
    obtain ⟨q', r, hi, hp⟩ := changePriority_spec h.inv ho p
    refine ⟨none, q', (x, p) :: b.without x, by simp only [POp.exec, r, Res.bind_ok], ⟨rfl, rfl⟩, ?_, ?_⟩
    · have hperm : (((x, p) :: b.without x).map Prod.fst).Perm (b.map Prod.fst) := by
        rw [List.map_cons, without_fst h.nd]
        exact (List.perm_cons_erase ho).symm
      exact ⟨hi.av, hi.stp, by rw [hperm.length_eq]; exact hi.len, hperm.nodup_iff.2 hi.nd,
        fun j j1 j2 => by obtain ⟨y, a, b, c⟩ := hi.el j j1 j2; exact ⟨y, a, b, hperm.mem_iff.2 c⟩,
        fun y hy => hi.sur y (hperm.mem_iff.1 hy), hi.ord⟩
    · intro e he
      rw [hp]
      rcases List.mem_cons.1 he with rfl | he
      · simp [setPri]
      · rw [Bag.without, List.mem_filter] at he
        have hne : e.1 ≠ x := by simpa using he.2
        simp [setPri, hne, h.pri e he.1]
  | remove x =>
    obtain ⟨q', r, hi, hp⟩ := remove_spec h.inv ho
    refine ⟨none, q', b.without x, by simp only [POp.exec, r, Res.bind_ok], ⟨rfl, rfl⟩, by rw [without_fst h.nd]; exact hi, ?_⟩
    intro e he
    rw [Bag.without, List.mem_filter] at he
    rw [hp, h.pri e he.1]
  | pop =>
    by_cases hb : b = []
    · subst hb
      refine ⟨none, q, [], ?_, by simp [POp.does], h⟩
      have : q.size = 1 := by have := h.inv.len; simp at this; omega
      simp only [POp.exec, pop, if_pos this]
    · obtain ⟨x, q', r, hx, ht, hi, hp, _⟩ := pop_spec h.inv (by simpa using hb)
      refine ⟨some x, q', b.without x, r, ?_, by rw [without_fst h.nd]; exact hi, ?_⟩
      · simp only [POp.does, if_neg hb]
        exact ⟨x, rfl, h.top hx ht, rfl⟩
      · intro e he
        rw [Bag.without, List.mem_filter] at he
        rw [hp, h.pri e he.1]
  | peek =>
    by_cases hb : b = []
    · subst hb
      refine ⟨none, q, [], ?_, by simp [POp.does], h⟩
      have : q.size = 1 := by have := h.inv.len; simp at this; omega
      simp only [POp.exec, peek, if_pos this, Res.bind_ok]
    · obtain ⟨x, q', r, hx, ht, hi, hp, hk⟩ := pop_spec h.inv (by simpa using hb)
      refine ⟨some x, q, b, by simp only [POp.exec, hk, Res.bind_ok], ?_, h⟩
      simp only [POp.does, if_neg hb]
      exact ⟨trivial, x, rfl, h.top hx ht⟩

theorem good : ∀ (ops : List (POp P)) (q : Q P) (b : Bag P), Rel q b → POp.Good ops q b
  | [], q, b, h => by have := h.inv.len; simp at this; exact this.symm
  | op :: ops, q, b, h => by
    intro ho
    obtain ⟨out, q', b', r, hd, h'⟩ := exec_spec h op ho
    exact ⟨out, q', b', r, hd, good ops q' b' h'⟩

end Verif.PQueue
