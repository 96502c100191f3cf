import Verif.Spec.Simulator
import Mathlib.Data.List.Basic
/-!
# The simulator: counters, and independence of the schedule
-/

namespace Verif.Simulator
open Verif Verif.Spec.Sim
variable {σ : Type}

/-- `k` steps from any point -/
def iter (C : Cache σ) (p : Params) : Nat → Nat × Job σ → Res (Nat × Job σ)
  | 0, x => .ok x
  | k + 1, x => jobStep C p x.1 x.2 >>= fun y => iter C p k y

theorem iter_succ' (C : Cache σ) (p : Params) (k : Nat) (x : Nat × Job σ) :
    iter C p (k + 1) x = (iter C p k x >>= fun y => jobStep C p y.1 y.2) := by
  induction k generalizing x with
  | zero =>
    simp only [iter, Res.bind_ok]
    cases jobStep C p x.1 x.2 <;> rfl
  | succ k ih =>
    rw [iter]
    cases h : jobStep C p x.1 x.2 with
    | error e => simp only [iter, h, Res.bind_error]
    | ok y =>
      rw [Res.bind_ok, ih y]
      simp only [iter, h, Res.bind_ok]

theorem alone_eq_iter (C : Cache σ) (p : Params) (j : Job σ) (k : Nat) : alone C p j k = iter C p k (0, j) := by
  induction k with
  | zero => rfl
  | succ k ih => rw [iter_succ', ← ih]; rfl

theorem iter_add (C : Cache σ) (p : Params) (m k : Nat) (x y : Nat × Job σ) (h : iter C p m x = .ok y) :
    iter C p (m + k) x = iter C p k y := by
  induction m generalizing x with
  | zero => simp only [iter] at h; cases h; simp
  | succ m ih =>
    rw [Nat.add_right_comm, iter]
    rw [iter] at h
    cases hs : jobStep C p x.1 x.2 with
    | error e => rw [hs] at h; cases h
    | ok z => rw [hs] at h; rw [Res.bind_ok]; exact ih z h

theorem iter_done (C : Cache σ) (p : Params) (k : Nat) (x : Nat × Job σ) (h : x.2.pc = .done) : iter C p k x = .ok x := by
  induction k with
  | zero => rfl
  | succ k ih =>
    rw [iter]
    have : jobStep C p x.1 x.2 = .ok x := by unfold jobStep; simp only [h]
    rw [this, Res.bind_ok, ih]

/-- the final state of a task is unique -/
theorem alone_unique {C : Cache σ} {p : Params} {j : Job σ} {k k' : Nat} {x y : Nat × Job σ} (hx : alone C p j k = .ok x)
    (hy : alone C p j k' = .ok y) (dx : x.2.pc = .done) (dy : y.2.pc = .done) : x = y := by
  rw [alone_eq_iter] at hx hy
  have a := iter_add C p k k' _ _ hx
  have b := iter_add C p k' k _ _ hy
  rw [iter_done C p k' x dx] at a
  rw [iter_done C p k y dy, Nat.add_comm] at b
  rw [a] at b
  exact Except.ok.inj b

theorem serve_append (C : Cache σ) (seed : Nat) (s : σ) (a b : List Item) :
    serve C seed s (a ++ b) = (serve C seed s a >>= fun r => serve C r.2.1 r.2.2 b >>= fun q => .ok (r.1 ++ q.1, q.2)) := by
  induction a generalizing seed s with
  | nil =>
    simp only [List.nil_append, serve, Res.bind_ok]
    cases serve C seed s b <;> rfl
  | cons it a ih =>
    simp only [List.cons_append, serve]
    cases C.get seed s it.req with
    | error e => rfl
    | ok r =>
      simp only [Res.bind_ok, ih]
      cases serve C r.2.1 r.2.2 a with
      | error e => rfl
      | ok q =>
        simp only [Res.bind_ok]
        cases serve C q.2.1 q.2.2 b <;> rfl

theorem serve_length {C : Cache σ} {seed : Nat} {s : σ} {l : List Item} {r : List Bool × Nat × σ}
    (h : serve C seed s l = .ok r) : r.1.length = l.length := by
  induction l generalizing seed s r with
  | nil => simp only [serve] at h; cases h; rfl
  | cons it l ih =>
    simp only [serve] at h
    rw [Res.bind_eq_ok] at h
    obtain ⟨a, _, h⟩ := h
    rw [Res.bind_eq_ok] at h
    obtain ⟨q, hq, h⟩ := h
    cases h
    simp [ih hq]

theorem serve_cons {C : Cache σ} {seed : Nat} {s : σ} {it : Item} {l : List Item} {r : List Bool × Nat × σ}
    (h : serve C seed s (it :: l) = .ok r) :
    ∃ b sd s' as, C.get seed s it.req = .ok (b, sd, s') ∧ serve C sd s' l = .ok (as, r.2) ∧ r.1 = b :: as := by
  simp only [serve] at h
  rw [Res.bind_eq_ok] at h
  obtain ⟨a, ha, h⟩ := h
  rw [Res.bind_eq_ok] at h
  obtain ⟨q, hq, h⟩ := h
  cases h
  exact ⟨a.1, a.2.1, a.2.2, q.1, ha, hq, rfl⟩

/-- the warm-up reader phase -/
theorem iter_warmReader (C : Cache σ) (p : Params) :
    ∀ (l : List Item) (seed : Nat) (j : Job σ) (r : List Bool × Nat × σ), j.pc = .warmReader → j.warm = l →
      serve C seed j.cache l = .ok r →
      ∃ clock, (∀ it, l.getLast? = some it → clock = it.time) ∧ (l = [] → clock = j.clock) ∧
      iter C p (l.length + 1) (seed, j) = .ok (r.2.1, { j with pc := .start, cache := r.2.2, warm := [], clock := clock, stat := { j.stat with nWarmup := j.stat.nWarmup + l.length } })
  | [], seed, j, r, hpc, hw, h => by
    simp only [serve] at h; cases h
    refine ⟨j.clock, by simp, fun _ => rfl, ?_⟩
    simp only [List.length_nil, Nat.zero_add, iter, jobStep, hpc, hw, Res.bind_ok]
    rw [← hw]
    rfl
  | it :: l, seed, j, r, hpc, hw, h => by
    obtain ⟨b, sd, s', as, hg, hs, hr⟩ := serve_cons h
    obtain ⟨clock, e1, e2, e⟩ := iter_warmReader C p l sd
      { j with cache := s', warm := l, clock := it.time, stat := { j.stat with nWarmup := j.stat.nWarmup + 1 } } (as, r.2) hpc rfl hs
    refine ⟨clock, ?_, by simp, ?_⟩
    · intro x hx
      cases l with
      | nil => simp at hx; subst hx; exact e2 rfl
      | cons y l => exact e1 x (by simpa [List.getLast?_cons_cons] using hx)
    rw [List.length_cons, iter]
    have : jobStep C p seed j = .ok (sd, { j with cache := s', warm := l, clock := it.time, stat := { j.stat with nWarmup := j.stat.nWarmup + 1 } }) := by
      unfold jobStep; simp only [hpc, hw, hg, Res.bind_ok]
    rw [this, Res.bind_ok, e]
    simp only [Nat.add_assoc, Nat.add_comm 1]

/-- the warm-up phase on the trace itself -/
theorem iter_warmTrace (C : Cache σ) (p : Params) :
    ∀ (l : List Item) (seed : Nat) (j : Job σ) (r : List Bool × Nat × σ), j.pc = .warmTrace → j.tr = l →
      serve C seed j.cache l = .ok r →
      ∃ w m clock sd s', l = w ++ m ∧ (∀ i it, w[i]? = some it → j.nWarm + i < p.nWarmup ∨ it.time - j.startTs < p.sec) ∧
        (∀ it, m.head? = some it → ¬ (j.nWarm + w.length < p.nWarmup ∨ it.time - j.startTs < p.sec)) ∧
        serve C seed j.cache w = .ok (r.1.take w.length, sd, s') ∧ serve C sd s' m = .ok (r.1.drop w.length, r.2) ∧
        (∀ it, w.getLast? = some it → clock = it.time - j.startTs) ∧ (w = [] → clock = j.clock) ∧
        iter C p (w.length + 1) (seed, j) = .ok (sd, { j with pc := .main, cache := s', tr := m, clock := clock, nWarm := j.nWarm + w.length, stat := { j.stat with nWarmup := j.stat.nWarmup + (j.nWarm + w.length) } })
  | [], seed, j, r, hpc, ht, h => by
    simp only [serve] at h; cases h
    refine ⟨[], [], j.clock, seed, j.cache, rfl, by simp, by simp, rfl, rfl, by simp, fun _ => rfl, ?_⟩
    simp only [List.length_nil, Nat.zero_add, Nat.add_zero, iter, jobStep, hpc, ht, Res.bind_ok]
  | it :: l, seed, j, r, hpc, ht, h => by
    by_cases hc : j.nWarm < p.nWarmup ∨ it.time - j.startTs < p.sec
    · obtain ⟨b, sd, s', as, hg, hs, hr⟩ := serve_cons h
      obtain ⟨w, m, clock, sd2, s2, e1, e2, e3, e4, e5, e6, e6', e7⟩ := iter_warmTrace C p l sd
        { j with cache := s', tr := l, clock := it.time - j.startTs, nWarm := j.nWarm + 1 } (as, r.2) hpc rfl hs
      simp only at e1 e2 e3 e4 e5 e6 e6' e7
      have hst : jobStep C p seed j = .ok (sd, { j with cache := s', tr := l, clock := it.time - j.startTs, nWarm := j.nWarm + 1 }) := by
        unfold jobStep; simp only [hpc, ht, hg, Res.bind_ok, if_pos hc]
      cases w with
      | nil =>
        refine ⟨[it], m, it.time - j.startTs, sd2, s2, by simp [e1], ?_, ?_, ?_, ?_, ?_, by simp, ?_⟩
        · intro i x hx
          cases i with
          | zero => simp only [List.getElem?_cons_zero, Option.some.injEq] at hx; subst hx; simpa using hc
          | succ i => simp at hx
        · intro x hx; have := e3 x hx; simpa [Nat.add_assoc] using this
        · simp only [List.length_nil, List.take_zero, serve] at e4
          cases e4
          simp only [List.length_cons, List.length_nil, hr, serve, hg, Res.bind_ok]; rfl
        · rw [hr]; simpa using e5
        · intro x hx; simp at hx; subst hx; rfl
        · rw [List.length_singleton, iter, hst, Res.bind_ok]
          simp only [List.length_nil, Nat.zero_add] at e7
          simp only [List.length_nil, List.take_zero, serve] at e4
          cases e4
          simp only [iter, jobStep, hpc, Res.bind_ok]
          cases l with
          | nil =>
            simp only [List.nil_append] at e1
            subst e1; rfl
          | cons y l =>
            simp only [List.nil_append] at e1
            subst e1
            have := e3 y rfl
            simp only [List.length_nil, Nat.add_zero] at this
            simp only [if_neg this]
            rfl
      | cons x w =>
        refine ⟨it :: x :: w, m, clock, sd2, s2, by rw [e1]; rfl, ?_, ?_, ?_, ?_, ?_, by simp, ?_⟩
        · intro i y hy
          cases i with
          | zero => simp only [List.getElem?_cons_zero, Option.some.injEq] at hy; subst hy; simpa using hc
          | succ i =>
            rw [List.getElem?_cons_succ] at hy
            have := e2 i y hy
            rwa [Nat.add_assoc, Nat.add_comm 1] at this
        · intro y hy
          have := e3 y hy
          simp only [List.length_cons] at this ⊢
          rwa [Nat.add_assoc, Nat.add_comm 1] at this
        · rw [hr, List.length_cons, List.take_succ_cons]
          rw [serve, hg, Res.bind_ok]
          simp only [e4, Res.bind_ok]
        · rw [hr, List.length_cons, List.drop_succ_cons]; exact e5
        · intro y hy
          exact e6 y (by simpa [List.getLast?_cons_cons] using hy)
        · rw [List.length_cons, iter, hst, Res.bind_ok, e7]
          simp only [Nat.add_assoc, Nat.add_comm 1]
    · refine ⟨[], it :: l, j.clock, seed, j.cache, rfl, by simp, ?_, rfl, h, by simp, fun _ => rfl, ?_⟩
      · intro x hx; simp only [List.head?_cons, Option.some.injEq] at hx; subst hx; simpa using hc
      · simp only [List.length_nil, Nat.zero_add, Nat.add_zero, iter, jobStep, hpc, ht, Res.bind_ok, if_neg hc]

theorem missed_cons (it : Item) (l : List Item) (b : Bool) (as : List Bool) :
    missed (it :: l) (b :: as) = if b = false then it :: missed l as else missed l as := by
  unfold missed
  cases b <;> simp

theorem sizes_cons (it : Item) (l : List Item) : sizes (it :: l) = it.req.size + sizes l := by simp [sizes]

/-- the measured phase -/
theorem iter_main (C : Cache σ) (p : Params) :
    ∀ (l : List Item) (seed : Nat) (j : Job σ) (r : List Bool × Nat × σ), j.pc = .main → j.tr = l →
      serve C seed j.cache l = .ok r →
      ∃ clock, (∀ it, l.getLast? = some it → clock = it.time - j.startTs) ∧ (l = [] → clock = j.clock) ∧
      iter C p (l.length + 2) (seed, j) = .ok (r.2.1, { j with pc := .done, cache := r.2.2, tr := [], clock := clock, stat := { j.stat with nReq := j.stat.nReq + l.length, reqByte := j.stat.reqByte + sizes l, nMiss := j.stat.nMiss + (missed l r.1).length, missByte := j.stat.missByte + sizes (missed l r.1), rtime := clock, nObj := C.nObj r.2.2, occ := C.occ r.2.2 } })
  | [], seed, j, r, hpc, ht, h => by
    simp only [serve] at h; cases h
    refine ⟨j.clock, by simp, fun _ => rfl, ?_⟩
    simp only [List.length_nil, Nat.zero_add, iter, jobStep, hpc, ht, Res.bind_ok, missed, sizes, List.zip_nil_left,
      List.filter_nil, List.map_nil, List.sum_nil, Nat.add_zero]
  | it :: l, seed, j, r, hpc, ht, h => by
    obtain ⟨b, sd, s', as, hg, hs, hr⟩ := serve_cons h
    let st : Stat := { j.stat with nReq := j.stat.nReq + 1, reqByte := j.stat.reqByte + it.req.size }
    let st' : Stat := if b = false then { st with nMiss := st.nMiss + 1, missByte := st.missByte + it.req.size } else st
    obtain ⟨clock, e1, e2, e⟩ := iter_main C p l sd
      { j with cache := s', tr := l, clock := it.time - j.startTs, stat := st' } (as, r.2) hpc rfl hs
    refine ⟨clock, ?_, by simp, ?_⟩
    · intro x hx
      cases l with
      | nil => simp at hx; subst hx; exact e2 rfl
      | cons y l => exact e1 x (by simpa [List.getLast?_cons_cons] using hx)
    · rw [show (it :: l).length + 2 = (l.length + 2) + 1 by simp, iter]
      have : jobStep C p seed j = .ok (sd, { j with cache := s', tr := l, clock := it.time - j.startTs, stat := st' }) := by
        unfold jobStep
        simp only [hpc, ht, hg, Res.bind_ok]
        rfl
      rw [this, Res.bind_ok, e, hr]
      simp only [missed_cons, sizes_cons, st', st]
      cases b <;> simp [sizes_cons, Nat.add_assoc, Nat.add_comm 1]

theorem reports_of_iter {C : Cache σ} {p : Params} {j : Job σ} {k : Nat} {x : Nat × Job σ} (h : iter C p k (0, j) = .ok x)
    (hd : x.2.pc = .done) {st : Stat} (hs : st = x.2.stat) : Reports C p j st x.2.cache :=
  ⟨k, x.1, x.2, by rw [alone_eq_iter, h], hd, hs.symm, rfl⟩

/-- a task run alone reports what it should -/
theorem reports_spec (C : Cache σ) (p : Params) (s0 : σ) (warm tr w m : List Item) (hs : Split p tr w m)
    (aw am : List Bool) (seed : Nat) (s : σ) (hl : aw.length = warm.length + w.length)
    (h : serve C 0 s0 (warm ++ tr) = .ok (aw ++ am, seed, s)) :
    Reports C p (Job.init s0 warm tr) (report C warm w m am s) s := by
  rw [serve_append, Res.bind_eq_ok] at h
  obtain ⟨⟨a1, sd1, s1⟩, h1, h⟩ := h
  rw [Res.bind_eq_ok] at h
  obtain ⟨⟨a2, sd2, s2⟩, h2, h⟩ := h
  simp only [Except.ok.injEq, Prod.mk.injEq] at h h2
  obtain ⟨ha, rfl, rfl⟩ := h
  have l1 := serve_length h1
  have l2 := serve_length h2
  simp only at l1 l2
  have ham : am = a2.drop w.length := by
    have := congrArg (List.drop (warm.length + w.length)) ha
    rw [← hl, List.drop_left] at this
    rw [← this, hl, ← l1, List.drop_append, List.drop_eq_nil_of_le (by omega)]
    simp
  obtain ⟨c1, f1, f2, e1⟩ := iter_warmReader C p warm 0 (Job.init s0 warm tr) _ rfl rfl h1
  simp only [Job.init] at e1 f2
  generalize hst : (match tr with | [] => c1 | it :: _ => it.time) = st0
  by_cases hp : p.nWarmup > 0 ∨ p.sec > 0
  · -- with a warm-up phase
    let j1 : Job σ := { pc := .warmTrace, cache := s1, warm := [], tr := tr, clock := c1, startTs := st0, nWarm := 0, stat := { nWarmup := warm.length } }
    have e2 : iter C p 1 (sd1, { pc := .start, cache := s1, warm := [], tr := tr, clock := c1, startTs := 0, nWarm := 0, stat := { nWarmup := warm.length } }) = .ok (sd1, j1) := by
      simp only [iter, jobStep, if_pos hp, Res.bind_ok, j1]
      rw [← hst]
      cases tr <;> rfl
    obtain ⟨w', m', c2, sd3, s3, g1, g2, g3, g4, g5, g6, g7, e3⟩ := iter_warmTrace C p tr sd1 j1 _ rfl rfl h2
    have hst' : ∀ it, tr.head? = some it → st0 = startOf tr := by
      intro it hit
      cases tr with
      | nil => simp at hit
      | cons x t => rw [← hst]; rfl
    have hww : w = w' ∧ m = m' := by
      have key : ∀ (a b a' b' : List Item) (P : Nat → Item → Prop) (n : Nat), a ++ b = a' ++ b' →
          (∀ i it, a[i]? = some it → P (n + i) it) → (∀ it, b.head? = some it → ¬ P (n + a.length) it) →
          (∀ i it, a'[i]? = some it → P (n + i) it) → (∀ it, b'.head? = some it → ¬ P (n + a'.length) it) → a = a' ∧ b = b' := by
        intro a
        induction a with
        | nil =>
          intro b a' b' P n e h1 h2 h3 h4
          cases a' with
          | nil => exact ⟨rfl, by simpa using e⟩
          | cons x a' =>
            simp only [List.nil_append] at e
            subst e
            exact absurd (h3 0 x rfl) (h2 x rfl)
        | cons x a ih =>
          intro b a' b' P n e h1 h2 h3 h4
          cases a' with
          | nil =>
            simp only [List.nil_append] at e
            subst e
            exact absurd (h1 0 x rfl) (h4 x rfl)
          | cons y a' =>
            simp only [List.cons_append, List.cons.injEq] at e
            obtain ⟨rfl, e⟩ := e
            have := ih b a' b' P (n + 1) e
              (fun i it hi => by have := h1 (i + 1) it (by simpa using hi); rwa [Nat.add_assoc, Nat.add_comm 1])
              (fun it hi => by have := h2 it hi; rwa [List.length_cons, Nat.add_comm a.length, ← Nat.add_assoc] at this)
              (fun i it hi => by have := h3 (i + 1) it (by simpa using hi); rwa [Nat.add_assoc, Nat.add_comm 1])
              (fun it hi => by have := h4 it hi; rwa [List.length_cons, Nat.add_comm a'.length, ← Nat.add_assoc] at this)
            exact ⟨by rw [this.1], this.2⟩
      have hwf := hs.warms
      have hsf := hs.stop hp
      have hh : ∀ it, tr.head? = some it → startOf tr = st0 := fun it h => (hst' it h).symm
      refine key w m w' m' (Warms p st0) 0 (hs.whole ▸ g1) ?_ ?_ ?_ ?_
      · intro i it hi
        have : ∃ x, tr.head? = some x := by
          cases htr : tr with
          | nil => rw [htr] at hs; have := hs.whole; simp only [List.nil_eq, List.append_eq_nil_iff] at this; simp [this.1] at hi
          | cons x t => exact ⟨x, rfl⟩
        obtain ⟨x, hx⟩ := this
        rw [Nat.zero_add, ← hh x hx]
        exact hwf i it hi
      · intro it hi
        have : ∃ x, tr.head? = some x := by
          cases htr : tr with
          | nil => rw [htr] at hs; have := hs.whole; simp only [List.nil_eq, List.append_eq_nil_iff] at this; simp [this.2] at hi
          | cons x t => exact ⟨x, rfl⟩
        obtain ⟨x, hx⟩ := this
        rw [Nat.zero_add, ← hh x hx]
        exact hsf it hi
      · intro i it hi; exact g2 i it hi
      · intro it hi; exact g3 it hi
    obtain ⟨rfl, rfl⟩ := hww
    obtain ⟨c3, k1, k2, e4⟩ := iter_main C p m sd3 { j1 with pc := .main, cache := s3, tr := m, clock := c2, nWarm := j1.nWarm + w.length, stat := { j1.stat with nWarmup := j1.stat.nWarmup + (j1.nWarm + w.length) } } (a2.drop w.length, sd2, s2) rfl rfl g5
    have e := iter_add C p _ (1 + ((w.length + 1) + (m.length + 2))) _ _ e1
    rw [Nat.zero_add, iter_add C p 1 _ _ _ e2, iter_add C p _ _ _ _ e3] at e
    replace e := e.trans e4
    rw [ham]
    refine reports_of_iter e rfl ?_
    simp only [j1, Nat.zero_add]
    unfold report
    congr 1
    · unfold elapsed
      rw [List.getLast?_append]
      cases hm : m.getLast? with
      | some it =>
        rw [k1 it hm]
        have : ∃ x, tr.head? = some x := by
          cases htr : tr with
          | nil =>
            have := hs.whole; rw [htr] at this
            simp only [List.nil_eq, List.append_eq_nil_iff] at this; simp [this.2] at hm
          | cons x t => exact ⟨x, rfl⟩
        obtain ⟨x, hx⟩ := this
        rw [show j1.startTs = st0 from rfl, hst' x hx, hs.whole]
        rfl
      | none =>
        have hm0 : m = [] := by simpa using hm
        rw [k2 hm0]
        cases hw : w.getLast? with
        | some it =>
          have : ∃ x, tr.head? = some x := by
            cases htr : tr with
            | nil =>
              have := hs.whole; rw [htr] at this
              simp only [List.nil_eq, List.append_eq_nil_iff] at this; simp [this.1] at hw
            | cons x t => exact ⟨x, rfl⟩
          obtain ⟨x, hx⟩ := this
          rw [g6 it hw, show j1.startTs = st0 from rfl, hst' x hx, hs.whole]
          rfl
        | none =>
          have hw0 : w = [] := by simpa using hw
          rw [g7 hw0]
          show _ = c1
          cases hwr : warm.getLast? with
          | some it => rw [f1 it hwr]; rfl
          | none => rw [f2 (by simpa using hwr)]; rfl
  · have hw0 := hs.off hp
    subst hw0
    have hm : tr = m := by simpa using hs.whole
    subst hm
    let j1 : Job σ := { pc := .main, cache := s1, warm := [], tr := tr, clock := c1, startTs := st0, nWarm := 0, stat := { nWarmup := warm.length } }
    have e2 : iter C p 1 (sd1, { pc := .start, cache := s1, warm := [], tr := tr, clock := c1, startTs := 0, nWarm := 0, stat := { nWarmup := warm.length } }) = .ok (sd1, j1) := by
      simp only [iter, jobStep, if_neg hp, Res.bind_ok, j1]
      rw [← hst]
      cases tr <;> rfl
    obtain ⟨c3, k1, k2, e4⟩ := iter_main C p tr sd1 j1 _ rfl rfl h2
    have e := iter_add C p _ (1 + (tr.length + 2)) _ _ e1
    rw [Nat.zero_add, iter_add C p 1 _ _ _ e2] at e
    replace e := e.trans e4
    rw [ham]
    refine reports_of_iter e rfl ?_
    simp only [j1, Nat.zero_add]
    unfold report
    congr 1
    unfold elapsed
    rw [List.nil_append]
    cases hm : tr.getLast? with
    | some it =>
      rw [k1 it hm]
      cases tr with
      | nil => simp at hm
      | cons x t => rw [show j1.startTs = st0 from rfl, ← hst]; rfl
    | none =>
      rw [k2 (by simpa using hm)]
      show _ = c1
      cases hwr : warm.getLast? with
      | some it => rw [f1 it hwr]
      | none => rw [f2 (by simpa using hwr)]

end Verif.Simulator
