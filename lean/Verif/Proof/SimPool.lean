import Verif.Proof.Simulator
import Mathlib.Algebra.BigOperators.Group.Finset.Basic
import Mathlib.Algebra.Order.BigOperators.Group.Finset
/-!
# The thread pool: whatever the schedule, every task computes what it computes alone
-/

namespace Verif.Simulator
open Verif Verif.Spec.Sim

variable {σ : Type}

/-- the state after any number of actions; `fin` lists the tasks that have reported progress, `f i` counts the steps of task
`i`, `t` counts the tasks taken from the queue and `c` the actions -/
structure Inv (C : Nat → Cache σ) (p : Params) (n threads : Nat) (jobs : Nat → Job σ) (g : World σ) (fin : List Nat)
    (f : Nat → Nat) (t c : Nat) : Prop where
  pushed : g.pushed ≤ n
  nodup : g.queue.Nodup
  queued : ∀ i ∈ g.queue, i < g.pushed ∧ g.job i = jobs i ∧ f i = 0
  later : ∀ i, g.pushed ≤ i → g.job i = jobs i ∧ f i = 0
  busy : ∀ w i, (g.worker w).task = some i → w < threads ∧ i < g.pushed ∧ i ∉ g.queue ∧ i ∉ fin ∧
    alone (C i) p (jobs i) (f i) = .ok ((g.worker w).seed, g.job i)
  own : ∀ w w' i, (g.worker w).task = some i → (g.worker w').task = some i → w = w'
  fins : ∀ i ∈ fin, i < g.pushed ∧ i ∉ g.queue ∧ (g.job i).pc = .done ∧ ∃ seed, alone (C i) p (jobs i) (f i) = .ok (seed, g.job i)
  finNodup : fin.Nodup
  progress : g.progress = fin.length
  all : ∀ i < g.pushed, i ∈ g.queue ∨ i ∈ fin ∨ ∃ w, (g.worker w).task = some i
  steps : ∀ i K s j, alone (C i) p (jobs i) K = .ok (s, j) → j.pc = .done → f i ≤ K
  taken : t + g.queue.length = g.pushed
  count : c = g.pushed + t + (∑ i ∈ Finset.range n, f i) + fin.length

theorem inv_init (C : Nat → Cache σ) (p : Params) (n threads : Nat) (seeds : Nat → Nat) (jobs : Nat → Job σ) :
    Inv C p n threads jobs (World.init seeds jobs) [] (fun _ => 0) 0 0 where
  pushed := Nat.zero_le _
  nodup := List.nodup_nil
  queued := by intro i hi; simp [World.init] at hi
  later := fun i _ => ⟨rfl, rfl⟩
  busy := by intro w i h; simp [World.init] at h
  own := by intro w w' i h; simp [World.init] at h
  fins := by intro i hi; simp at hi
  finNodup := List.nodup_nil
  progress := rfl
  all := by intro i hi; simp [World.init] at hi
  steps := by intros; exact Nat.zero_le _
  taken := rfl
  count := by simp [World.init]

theorem setAt_same {α : Type} (f : Nat → α) (i : Nat) (x : α) : setAt f i x i = x := by simp [setAt]
theorem setAt_ne {α : Type} (f : Nat → α) {i j : Nat} (x : α) (h : j ≠ i) : setAt f i x j = f j := by simp [setAt, h]

theorem alone_done_le {C : Cache σ} {p : Params} {j : Job σ} {k K : Nat} {s s' : Nat} {a b : Job σ}
    (h : alone C p j k = .ok (s, a)) (hn : a.pc ≠ .done) (h' : alone C p j K = .ok (s', b)) (hd : b.pc = .done) : k < K := by
  by_contra hc
  obtain ⟨d, rfl⟩ := Nat.exists_eq_add_of_le (Nat.le_of_not_lt hc)
  rw [alone_eq_iter] at h h'
  rw [iter_add C p K d _ _ h', iter_done C p d _ hd] at h
  cases h
  exact hn hd

theorem inv_act {C : Nat → Cache σ} {p : Params} {n threads : Nat} {jobs : Nat → Job σ} {g g' : World σ} {fin : List Nat}
    {f : Nat → Nat} {t c : Nat} (h : Inv C p n threads jobs g fin f t c) {a : Action} (ha : g.act C p n threads a = some (.ok g')) :
    ∃ fin' f' t', Inv C p n threads jobs g' fin' f' t' (c + 1) := by
  cases a with
  | push =>
    unfold World.act at ha
    simp only at ha
    split at ha
    case isFalse => cases ha
    case isTrue hlt =>
    simp only [Option.some.injEq, Except.ok.injEq] at ha
    subst ha
    have hq : g.pushed ∉ g.queue := fun hm => Nat.lt_irrefl _ (h.queued _ hm).1
    refine ⟨fin, f, t, ⟨hlt, ?_, ?_, ?_, ?_, h.own, ?_, h.finNodup, h.progress, ?_, h.steps, ?_, ?_⟩⟩
    · exact List.nodup_append.2 ⟨h.nodup, by simp, by intro x hx y hy; simp only [List.mem_singleton] at hy; subst hy; rintro rfl; exact hq hx⟩
    · intro i hi
      simp only [List.mem_append, List.mem_singleton] at hi
      rcases hi with hi | rfl
      · obtain ⟨a, b⟩ := h.queued i hi; exact ⟨Nat.lt_succ_of_lt a, b⟩
      · exact ⟨Nat.lt_succ_self _, h.later _ (Nat.le_refl _)⟩
    · intro i hi; exact h.later i (Nat.le_of_succ_le hi)
    · intro w i hw
      obtain ⟨h1, h2, h3, h4, h5⟩ := h.busy w i hw
      refine ⟨h1, Nat.lt_succ_of_lt h2, ?_, h4, h5⟩
      simp only [List.mem_append, List.mem_singleton, not_or]
      exact ⟨h3, Nat.ne_of_lt h2⟩
    · intro i hi
      obtain ⟨h1, h2, h3⟩ := h.fins i hi
      refine ⟨Nat.lt_succ_of_lt h1, ?_, h3⟩
      simp only [List.mem_append, List.mem_singleton, not_or]
      exact ⟨h2, Nat.ne_of_lt h1⟩
    · intro i hi
      simp only [List.mem_append, List.mem_singleton]
      rcases Nat.lt_succ_iff_lt_or_eq.1 hi with hi | rfl
      · rcases h.all i hi with h1 | h1 | h1
        · exact .inl (.inl h1)
        · exact .inr (.inl h1)
        · exact .inr (.inr h1)
      · exact .inl (.inr rfl)
    · have := h.taken; simp only [List.length_append, List.length_singleton]; omega
    · have := h.count; simp only; omega
  | take w i =>
    unfold World.act at ha
    simp only at ha
    split at ha
    case isFalse => cases ha
    case isTrue hc =>
    obtain ⟨hw, hidle, hi⟩ := hc
    simp only [Option.some.injEq, Except.ok.injEq] at ha
    subst ha
    obtain ⟨hi1, hi2, hi3⟩ := h.queued i hi
    have hmem : ∀ x, x ∈ g.queue.erase i ↔ x ≠ i ∧ x ∈ g.queue := fun x => h.nodup.mem_erase_iff
    have hnf : i ∉ fin := fun hf => (h.fins i hf).2.1 hi
    refine ⟨fin, f, t + 1, ⟨h.pushed, h.nodup.erase i, ?_, h.later, ?_, ?_, ?_, h.finNodup, h.progress, ?_, h.steps, ?_, ?_⟩⟩
    · intro x hx; exact h.queued x ((hmem x).1 hx).2
    · intro v x hv
      simp only at hv
      by_cases e : v = w
      · subst e
        rw [setAt_same] at hv
        cases hv
        refine ⟨hw, hi1, ?_, hnf, ?_⟩
        · simp only [hmem]; exact fun hx => hx.1 rfl
        · simp only [setAt_same, hi2, hi3, alone]
      · rw [setAt_ne _ _ e] at hv
        obtain ⟨h1, h2, h3, h4, h5⟩ := h.busy v x hv
        refine ⟨h1, h2, ?_, h4, ?_⟩
        · simp only [hmem]; exact fun hx => h3 hx.2
        · simp only [setAt_ne _ _ e]; exact h5
    · intro v v' x hv hv'
      simp only at hv hv'
      by_cases e : v = w
      · subst e
        rw [setAt_same] at hv
        cases hv
        by_contra e'
        rw [setAt_ne _ _ (Ne.symm e')] at hv'
        exact (h.busy v' i hv').2.2.1 hi
      · rw [setAt_ne _ _ e] at hv
        by_cases e' : v' = w
        · subst e'
          rw [setAt_same] at hv'
          cases hv'
          exact absurd hi (h.busy v i hv).2.2.1
        · rw [setAt_ne _ _ e'] at hv'
          exact h.own v v' x hv hv'
    · intro x hx
      obtain ⟨h1, h2, h3⟩ := h.fins x hx
      exact ⟨h1, by simp only [hmem]; exact fun hy => h2 hy.2, h3⟩
    · intro x hx
      simp only [hmem]
      rcases h.all x hx with h1 | h1 | ⟨v, h1⟩
      · by_cases e : x = i
        · subst e; exact .inr (.inr ⟨w, by simp only [setAt_same]⟩)
        · exact .inl ⟨e, h1⟩
      · exact .inr (.inl h1)
      · refine .inr (.inr ⟨v, ?_⟩)
        have e : v ≠ w := by rintro rfl; rw [hidle] at h1; cases h1
        simp only [setAt_ne _ _ e]; exact h1
    · have h1 := h.taken
      have h2 := List.length_erase_of_mem hi
      have h3 := List.length_pos_of_mem hi
      simp only; omega
    · have := h.count; simp only; omega
  | work w =>
    unfold World.act at ha
    simp only at ha
    split at ha
    case isFalse => cases ha
    case isTrue hw =>
    split at ha
    case h_1 => cases ha
    case h_2 i hi =>
    obtain ⟨-, hp, hnq, hnf, hal⟩ := h.busy w i hi
    split at ha
    case isTrue hd =>
      simp only [Option.some.injEq, Except.ok.injEq] at ha
      subst ha
      refine ⟨i :: fin, f, t, ⟨h.pushed, h.nodup, h.queued, h.later, ?_, ?_, ?_, List.nodup_cons.2 ⟨hnf, h.finNodup⟩, ?_, ?_, h.steps, h.taken, ?_⟩⟩
      · intro v x hv
        simp only at hv
        by_cases e : v = w
        · subst e; rw [setAt_same] at hv; cases hv
        · rw [setAt_ne _ _ e] at hv
          obtain ⟨h1, h2, h3, h4, h5⟩ := h.busy v x hv
          refine ⟨h1, h2, h3, ?_, ?_⟩
          · simp only [List.mem_cons, not_or]
            refine ⟨?_, h4⟩
            rintro rfl
            exact e (h.own v w x hv hi)
          · simp only [setAt_ne _ _ e]; exact h5
      · intro v v' x hv hv'
        simp only at hv hv'
        have e : v ≠ w := by rintro rfl; rw [setAt_same] at hv; cases hv
        have e' : v' ≠ w := by rintro rfl; rw [setAt_same] at hv'; cases hv'
        rw [setAt_ne _ _ e] at hv
        rw [setAt_ne _ _ e'] at hv'
        exact h.own v v' x hv hv'
      · intro x hx
        rcases List.mem_cons.1 hx with rfl | hx
        · exact ⟨hp, hnq, hd, _, hal⟩
        · exact h.fins x hx
      · simp only [List.length_cons, h.progress]
      · intro x hx
        rcases h.all x hx with h1 | h1 | ⟨v, h1⟩
        · exact .inl h1
        · exact .inr (.inl (List.mem_cons_of_mem _ h1))
        · by_cases e : v = w
          · subst e; rw [hi] at h1; cases h1; exact .inr (.inl List.mem_cons_self)
          · exact .inr (.inr ⟨v, by simp only [setAt_ne _ _ e]; exact h1⟩)
      · have := h.count; simp only [List.length_cons]; omega
    case isFalse hd =>
      simp only [Option.some.injEq] at ha
      rw [Res.bind_eq_ok] at ha
      obtain ⟨r, hr, ha⟩ := ha
      simp only [Except.ok.injEq] at ha
      subst ha
      have hnew : alone (C i) p (jobs i) (f i + 1) = .ok (r.1, r.2) := by
        rw [alone, hal, Res.bind_ok, hr]
      refine ⟨fin, setAt f i (f i + 1), t, ⟨h.pushed, h.nodup, ?_, ?_, ?_, ?_, ?_, h.finNodup, h.progress, ?_, ?_, h.taken, ?_⟩⟩
      · intro x hx
        have e : x ≠ i := by rintro rfl; exact hnq hx
        simp only [setAt_ne _ _ e]; exact h.queued x hx
      · intro x hx
        have e : x ≠ i := by rintro rfl; simp only at hx; omega
        simp only [setAt_ne _ _ e]; exact h.later x hx
      · intro v x hv
        simp only at hv
        by_cases e : v = w
        · subst e
          rw [setAt_same] at hv
          cases hv
          refine ⟨hw, hp, hnq, hnf, ?_⟩
          simp only [setAt_same]; exact hnew
        · rw [setAt_ne _ _ e] at hv
          obtain ⟨h1, h2, h3, h4, h5⟩ := h.busy v x hv
          have ex : x ≠ i := by rintro rfl; exact e (h.own v w x hv hi)
          refine ⟨h1, h2, h3, h4, ?_⟩
          simp only [setAt_ne _ _ e, setAt_ne _ _ ex]; exact h5
      · intro v v' x hv hv'
        simp only at hv hv'
        have key : ∀ u, (setAt g.worker w ⟨r.1, some i⟩ u).task = some x → (g.worker u).task = some x := by
          intro u hu
          by_cases e : u = w
          · subst e; rw [setAt_same] at hu; rw [hi]; exact hu
          · rw [setAt_ne _ _ e] at hu; exact hu
        exact h.own v v' x (key v hv) (key v' hv')
      · intro x hx
        have ex : x ≠ i := by rintro rfl; exact hnf hx
        simp only [setAt_ne _ _ ex]; exact h.fins x hx
      · intro x hx
        rcases h.all x hx with h1 | h1 | ⟨v, h1⟩
        · exact .inl h1
        · exact .inr (.inl h1)
        · refine .inr (.inr ⟨v, ?_⟩)
          by_cases e : v = w
          · subst e; rw [hi] at h1; cases h1; simp only [setAt_same]
          · simp only [setAt_ne _ _ e]; exact h1
      · intro x K s j hK hdone
        by_cases e : x = i
        · subst e
          rw [setAt_same]
          exact alone_done_le hal hd hK hdone
        · rw [setAt_ne _ _ e]; exact h.steps x K s j hK hdone
      · have hsum : (∑ x ∈ Finset.range n, setAt f i (f i + 1) x) = (∑ x ∈ Finset.range n, f x) + 1 := by
          have hin : i ∈ Finset.range n := Finset.mem_range.2 (Nat.lt_of_lt_of_le hp h.pushed)
          rw [← Finset.add_sum_erase _ _ hin, ← Finset.add_sum_erase _ f hin, setAt_same]
          rw [Finset.sum_congr rfl (fun x hx => setAt_ne f _ (Finset.mem_erase.1 hx).1)]
          omega
        have := h.count
        simp only [hsum]; omega

theorem inv_run {C : Nat → Cache σ} {p : Params} {n threads : Nat} {jobs : Nat → Job σ} :
    ∀ (as : List Action) (g g' : World σ) (fin : List Nat) (f : Nat → Nat) (t c : Nat), Inv C p n threads jobs g fin f t c →
      g.run C p n threads as = some (.ok g') → ∃ fin' f' t', Inv C p n threads jobs g' fin' f' t' (c + as.length)
  | [], g, g', fin, f, t, c, h, hr => by
    simp only [World.run, Option.some.injEq, Except.ok.injEq] at hr
    subst hr; exact ⟨fin, f, t, h⟩
  | a :: as, g, g', fin, f, t, c, h, hr => by
    rw [World.run] at hr
    split at hr
    · cases hr
    · cases hr
    · next g1 hg1 =>
      obtain ⟨fin1, f1, t1, h1⟩ := inv_act h hg1
      obtain ⟨fin2, f2, t2, h2⟩ := inv_run as g1 g' fin1 f1 t1 (c + 1) h1 hr
      exact ⟨fin2, f2, t2, by rw [List.length_cons, Nat.add_comm as.length, ← Nat.add_assoc]; exact h2⟩

/-- an error of the pool is an error of one of the tasks run alone -/
theorem error_run {C : Nat → Cache σ} {p : Params} {n threads : Nat} {jobs : Nat → Job σ} :
    ∀ (as : List Action) (g : World σ) (fin : List Nat) (f : Nat → Nat) (t c : Nat) (e : Fault), Inv C p n threads jobs g fin f t c →
      g.run C p n threads as = some (.error e) → ∃ i k, i < n ∧ alone (C i) p (jobs i) k = .error e
  | [], g, fin, f, t, c, e, h, hr => by simp [World.run] at hr
  | a :: as, g, fin, f, t, c, e, h, hr => by
    rw [World.run] at hr
    split at hr
    · cases hr
    · next e' he =>
      simp only [Option.some.injEq, Except.error.injEq] at hr
      subst hr
      cases a with
      | push => unfold World.act at he; simp only at he; split at he <;> cases he
      | take w i => unfold World.act at he; simp only at he; split at he <;> cases he
      | work w =>
        unfold World.act at he
        simp only at he
        split at he
        case isFalse => cases he
        case isTrue hw =>
        split at he
        case h_1 => cases he
        case h_2 i hi =>
        obtain ⟨-, hp, -, -, hal⟩ := h.busy w i hi
        split at he
        · cases he
        · simp only [Option.some.injEq] at he
          refine ⟨i, f i + 1, Nat.lt_of_lt_of_le hp h.pushed, ?_⟩
          rw [alone, hal, Res.bind_ok]
          cases hj : jobStep (C i) p (g.worker w).seed (g.job i) with
          | error e2 => rw [hj] at he; cases he; rfl
          | ok r => rw [hj, Res.bind_ok] at he; cases he
    · next g1 hg1 =>
      obtain ⟨fin1, f1, t1, h1⟩ := inv_act h hg1
      exact error_run as g1 fin1 f1 t1 (c + 1) e h1 hr

theorem final_all {C : Nat → Cache σ} {p : Params} {n threads : Nat} {jobs : Nat → Job σ} {g : World σ} {fin : List Nat}
    {f : Nat → Nat} {t c : Nat} (h : Inv C p n threads jobs g fin f t c) (hf : g.Final n threads) : ∀ i, i ∈ fin ↔ i < n := by
  intro i
  refine ⟨fun hi => hf.1 ▸ (h.fins i hi).1, fun hi => ?_⟩
  rcases h.all i (hf.1.symm ▸ hi) with h1 | h1 | ⟨w, h1⟩
  · rw [hf.2.1] at h1; simp at h1
  · exact h1
  · have := hf.2.2 w (h.busy w i h1).1
    rw [this] at h1; cases h1

theorem final_progress {C : Nat → Cache σ} {p : Params} {n threads : Nat} {jobs : Nat → Job σ} {g : World σ} {fin : List Nat}
    {f : Nat → Nat} {t c : Nat} (h : Inv C p n threads jobs g fin f t c) (hf : g.Final n threads) : g.progress = n := by
  rw [h.progress]
  have : fin.Perm (List.range n) := (List.perm_ext_iff_of_nodup h.finNodup List.nodup_range).2
    (fun i => by rw [final_all h hf, List.mem_range])
  simpa using this.length_eq

/-- as long as the pool is not finished, some action is possible -/
theorem enabled {C : Nat → Cache σ} {p : Params} {n threads : Nat} {jobs : Nat → Job σ} {g : World σ} {fin : List Nat}
    {f : Nat → Nat} {t c : Nat} (h : Inv C p n threads jobs g fin f t c) (ht : 0 < threads) (hf : ¬ g.Final n threads) :
    ∃ a r, g.act C p n threads a = some r := by
  by_cases hp : g.pushed < n
  · exact ⟨.push, _, by unfold World.act; simp only [if_pos hp]; rfl⟩
  · have hp' : g.pushed = n := Nat.le_antisymm h.pushed (Nat.le_of_not_lt hp)
    by_cases hb : ∃ w < threads, (g.worker w).task ≠ none
    · obtain ⟨w, hw, hne⟩ := hb
      obtain ⟨i, hi⟩ := Option.ne_none_iff_exists'.1 hne
      refine ⟨.work w, ?_⟩
      unfold World.act
      simp only [if_pos hw, hi]
      split
      · exact ⟨_, rfl⟩
      · exact ⟨_, rfl⟩
    · simp only [not_exists, not_and, not_not] at hb
      have hq : g.queue ≠ [] := fun hq => hf ⟨hp', hq, hb⟩
      obtain ⟨i, hi⟩ := List.exists_mem_of_ne_nil _ hq
      exact ⟨.take 0 i, _, by unfold World.act; simp only [if_pos (⟨ht, hb 0 ht, hi⟩ : 0 < threads ∧ _ ∧ _)]; rfl⟩

theorem run_bound {C : Nat → Cache σ} {p : Params} {n threads : Nat} {jobs : Nat → Job σ} {g : World σ} {fin : List Nat}
    {f : Nat → Nat} {t c : Nat} (h : Inv C p n threads jobs g fin f t c) (K : Nat → Nat)
    (hK : ∀ i < n, ∃ s j, alone (C i) p (jobs i) (K i) = .ok (s, j) ∧ j.pc = .done) :
    c ≤ 3 * n + ∑ i ∈ Finset.range n, K i := by
  have h1 : (∑ i ∈ Finset.range n, f i) ≤ ∑ i ∈ Finset.range n, K i := by
    refine Finset.sum_le_sum (fun i hi => ?_)
    obtain ⟨s, j, h1, h2⟩ := hK i (Finset.mem_range.1 hi)
    exact h.steps i (K i) s j h1 h2
  have h2 : fin.length ≤ n := by
    have : fin.Subperm (List.range n) := List.subperm_of_subset h.finNodup
      (fun i hi => List.mem_range.2 (Nat.lt_of_lt_of_le (h.fins i hi).1 h.pushed))
    simpa using this.length_le
  have h3 := h.taken
  have h4 := h.count
  have h5 := h.pushed
  omega

/-! ## the warm-up split -/

theorem split_exists (p : Params) (tr : List Item) : ∃ w m, Split p tr w m := by
  by_cases hp : p.nWarmup > 0 ∨ p.sec > 0
  · have key : ∀ (l : List Item) (st : Int) (n : Nat), ∃ w m, l = w ++ m ∧ (∀ i it, w[i]? = some it → Warms p st (n + i) it) ∧
        (∀ it, m.head? = some it → ¬ Warms p st (n + w.length) it) := by
      intro l st
      induction l with
      | nil => intro n; exact ⟨[], [], rfl, by simp, by simp⟩
      | cons x l ih =>
        intro n
        by_cases hx : Warms p st n x
        · obtain ⟨w, m, h1, h2, h3⟩ := ih (n + 1)
          refine ⟨x :: w, m, by rw [h1]; rfl, ?_, ?_⟩
          · intro i it hi
            cases i with
            | zero => simp only [List.getElem?_cons_zero, Option.some.injEq] at hi; subst hi; exact hx
            | succ i => have := h2 i it (by simpa using hi); rwa [Nat.add_assoc, Nat.add_comm 1] at this
          · intro it hi
            have := h3 it hi
            rwa [Nat.add_assoc, Nat.add_comm 1] at this
        · exact ⟨[], x :: l, rfl, by simp, by intro it hi; simp at hi; subst hi; exact hx⟩
    obtain ⟨w, m, h1, h2, h3⟩ := key tr (startOf tr) 0
    simp only [Nat.zero_add] at h2 h3
    exact ⟨w, m, h1, h2, fun _ => h3, fun h => absurd hp h⟩
  · exact ⟨[], tr, rfl, by simp, fun h => absurd h hp, fun _ => rfl⟩

/-! ## caches that never use random numbers -/

theorem serve_ofAlgo {A : Algo σ} {nObj occ : σ → Int} : ∀ (its : List Item) (seed : Nat) (s : σ) (r : List Bool × σ),
    A.gets s (its.map (fun it => it.req)) = .ok r → serve (Cache.ofAlgo A nObj occ) seed s its = .ok (r.1, seed, r.2)
  | [], seed, s, r, h => by simp only [List.map_nil, Algo.gets, Except.ok.injEq] at h; subst h; rfl
  | it :: its, seed, s, r, h => by
    rw [List.map_cons, Algo.gets, Res.bind_eq_ok] at h
    obtain ⟨⟨b, s1⟩, h1, h⟩ := h
    simp only at h
    rw [Res.bind_eq_ok] at h
    obtain ⟨⟨bs, s2⟩, h2, h⟩ := h
    simp only [Except.ok.injEq] at h
    subst h
    have ih := serve_ofAlgo (nObj := nObj) (occ := occ) its seed s1 (bs, s2) h2
    have hg : (Cache.ofAlgo A nObj occ).get seed s it.req = .ok (b, seed, s1) := by
      simp only [Cache.ofAlgo, h1, Res.bind_ok]
    rw [serve, hg, Res.bind_ok, ih, Res.bind_ok]

end Verif.Simulator
