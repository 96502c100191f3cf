import Verif.Spec.Jobs
import Mathlib.Tactic.ByContra

namespace Verif.ThreadPool

theorem split_at : ∀ {ws : List Worker} {i : Nat} {w : Worker}, ws[i]? = some w →
    ∃ a b, ws = a ++ w :: b ∧ ∀ w', ws.set i w' = a ++ w' :: b
  | [], i, w, h => by simp at h
  | v :: ws, 0, w, h => by
    simp at h; subst h
    exact ⟨[], ws, rfl, fun _ => rfl⟩
  | v :: ws, i + 1, w, h => by
    obtain ⟨a, b, h1, h2⟩ := split_at (ws := ws) (i := i) (w := w) (by simpa using h)
    exact ⟨v :: a, b, by rw [h1]; rfl, fun w' => by simp [h2 w']⟩

theorem executing_append (a b : List Worker) : executing (a ++ b) = executing a ++ executing b := by
  induction a with
  | nil => rfl
  | cons w a ih => cases w <;> simp [executing, ih]

theorem executing_locked : ∀ ws : List Worker, ws.any Worker.runs = false ↔ executing ws = []
  | [] => by simp [executing]
  | w :: ws => by
    have := executing_locked ws
    cases w <;> simp_all [executing, Worker.runs]

theorem executing_map_wake (ws : List Worker) : executing (ws.map wake) = executing ws := by
  induction ws with
  | nil => rfl
  | cons w ws ih => cases w <;> simp [executing, wake, ih]

theorem executing_gone : ∀ ws : List Worker, (∀ w ∈ ws, w = .gone) → executing ws = []
  | [], _ => rfl
  | w :: ws, h => by
    rw [h w (by simp)]
    exact executing_gone ws fun x hx => h x (by simp [hx])

structure Inv (calls : List Call) (s : Pool) : Prop where
  calls : s.added ++ jobs s.client.rest = jobs calls
  hist : s.added = s.finished ++ executing s.workers ++ s.queue
  one : (executing s.workers).length ≤ 1
  cnt : s.running = (executing s.workers).length
  gone : Worker.gone ∈ s.workers → s.stopped = true
  wake : s.queue ≠ [] → s.stopped = false → s.workers ≠ [] → (∃ p, s.client = .notifyOne p) ∨ ∃ w ∈ s.workers, w ≠ .asleep
  stopw : s.stopped = true → Worker.asleep ∈ s.workers → ∃ p, s.client = .notifyAll p
  late : ∀ p, s.client = .notifyAll p ∨ s.client = .join p → s.stopped = true

theorem inv_init (n : Nat) (calls : List Call) : Inv calls (init n calls) := by
  have he : executing (List.replicate n Worker.ready) = [] := by
    induction n with
    | zero => rfl
    | succ n ih => simpa [List.replicate_succ, executing] using ih
  refine ⟨rfl, by simp [init, he], by simp [init, he], by simp [init, he], fun h => ?_, fun h => absurd rfl h, (fun h => nomatch h), fun p h => by rcases h with h | h <;> cases h⟩
  simp [init] at h

theorem inv_work {returns calls} {s s' : Pool} {i : Nat} (h : Inv calls s) (hs : work returns s i = some s') : Inv calls s' := by
  unfold work at hs
  split at hs
  · next hw =>
    obtain ⟨a, b, e, hset⟩ := split_at hw
    split at hs
    · cases hs
    · next hl =>
      have hx : executing s.workers = [] := (executing_locked _).1 (by simpa [Pool.locked] using hl)
      have hx' : executing a = [] ∧ executing b = [] := by
        rw [e, executing_append] at hx; simpa [executing] using hx
      split at hs
      · next hst =>
        cases hs
        have he : executing (s.workers.set i .gone) = executing s.workers := by rw [hset, hx, executing_append]; simp [executing, hx']
        refine ⟨h.calls, by rw [he]; exact h.hist, by rw [he]; exact h.one, by rw [he]; exact h.cnt, fun _ => hst, fun _ hf => ?_, fun _ ha => ?_, h.late⟩
        · simp [hst] at hf
        · refine h.stopw hst ?_
          rw [hset] at ha; rw [e]; simpa using ha
      · next hst =>
        split at hs
        · next hq =>
          cases hs
          have he : executing (s.workers.set i .asleep) = executing s.workers := by rw [hset, hx, executing_append]; simp [executing, hx']
          refine ⟨h.calls, by rw [he]; exact h.hist, by rw [he]; exact h.one, by rw [he]; exact h.cnt, fun hg => ?_, fun hne => absurd hq hne, fun h' => absurd h' hst, h.late⟩
          refine h.gone ?_
          have hg : Worker.gone ∈ s.workers.set i .asleep := hg
          rw [hset] at hg; rw [e]; simpa using hg
        · next j q hq =>
          cases hs
          have he : executing (s.workers.set i (.run j)) = [j] := by rw [hset, executing_append]; simp [executing, hx']
          refine ⟨h.calls, ?_, by rw [he]; simp, ?_, fun hg => ?_, fun _ _ _ => .inr ⟨.run j, ?_, by simp⟩, fun h' => absurd h' hst, h.late⟩
          · have := h.hist
            rw [hx, hq] at this
            rw [he]; simpa using this
          · have := h.cnt
            rw [hx] at this
            rw [he]; simp [this]
          · refine h.gone ?_
            have hg : Worker.gone ∈ s.workers.set i (.run j) := hg
            rw [hset] at hg; rw [e]; simpa using hg
          · show Worker.run j ∈ s.workers.set i (.run j)
            rw [hset]; simp
  · next j hw =>
    obtain ⟨a, b, e, hset⟩ := split_at hw
    split at hs
    · cases hs
      have ho := h.one
      have hx' : executing a = [] ∧ executing b = [] := by
        rw [e, executing_append] at ho
        simp [executing] at ho
        constructor <;> apply List.eq_nil_of_length_eq_zero <;> omega
      have hx : executing s.workers = [j] := by rw [e, executing_append]; simp [executing, hx']
      have he : executing (s.workers.set i .ready) = [] := by rw [hset, executing_append]; simp [executing, hx']
      refine ⟨h.calls, ?_, by rw [he]; simp, ?_, fun hg => ?_, fun _ _ _ => .inr ⟨.ready, ?_, by simp⟩, fun h' ha => ?_, h.late⟩
      · have := h.hist
        rw [hx] at this
        rw [he]; simpa using this
      · have := h.cnt
        rw [hx] at this
        rw [he]; simp [this]
      · refine h.gone ?_
        have hg : Worker.gone ∈ s.workers.set i .ready := hg
        rw [hset] at hg; rw [e]; simpa using hg
      · show Worker.ready ∈ s.workers.set i .ready
        rw [hset]; simp
      · refine h.stopw h' ?_
        have ha : Worker.asleep ∈ s.workers.set i .ready := ha
        rw [hset] at ha; rw [e]; simpa using ha
    · cases hs
  · cases hs

/-- A sleeper wakes up. -/
theorem inv_wake {calls} {s : Pool} {i : Nat} {c : Client} (h : Inv calls s) (hw : s.workers[i]? = some .asleep)
    (hr : jobs c.rest = jobs s.client.rest) (hc : c = s.client ∨ (∃ p, s.client = .notifyOne p) ∧ ∃ p, c = .go p) :
    Inv calls { s with workers := s.workers.set i .ready, client := c } := by
  obtain ⟨a, b, e, hset⟩ := split_at hw
  have he : executing (s.workers.set i .ready) = executing s.workers := by rw [hset, e, executing_append, executing_append]; rfl
  refine ⟨by show s.added ++ jobs c.rest = _; rw [hr]; exact h.calls, by rw [he]; exact h.hist, by rw [he]; exact h.one, by rw [he]; exact h.cnt, fun hg => ?_,
    fun _ _ _ => .inr ⟨.ready, ?_, by simp⟩, fun h' ha => ?_, fun p hp => ?_⟩
  · refine h.gone ?_
    have hg : Worker.gone ∈ s.workers.set i .ready := hg
    rw [hset] at hg; rw [e]; simpa using hg
  · show Worker.ready ∈ s.workers.set i .ready
    rw [hset]; simp
  · have hn := h.stopw h' (by rw [e]; simp)
    rcases hc with hc | ⟨⟨p, hc⟩, _⟩
    · show ∃ p, c = .notifyAll p
      rw [hc]; exact hn
    · obtain ⟨p', hn⟩ := hn
      rw [hc] at hn; cases hn
  · have hp : c = .notifyAll p ∨ c = .join p := hp
    rcases hc with hc | ⟨_, p', hc⟩
    · exact h.late p (by rw [← hc]; exact hp)
    · rw [hc] at hp; rcases hp with hp | hp <;> cases hp

theorem mem_map_wake {ws : List Worker} : Worker.asleep ∉ ws.map ThreadPool.wake ∧ (Worker.gone ∈ ws.map ThreadPool.wake → Worker.gone ∈ ws) := by
  refine ⟨fun h => ?_, fun h => ?_⟩ <;> obtain ⟨w, hw, he⟩ := List.mem_map.1 h <;> cases w <;> simp [ThreadPool.wake] at he
  exact hw

theorem inv_act {calls} {s s' : Pool} {who : Nat} (h : Inv calls s) (hs : act s who = some s') : Inv calls s' := by
  unfold act at hs
  split at hs
  · cases hs
  · next j p hc =>
    split at hs
    · cases hs
    · cases hs
      refine ⟨?_, ?_, h.one, h.cnt, h.gone, fun _ _ _ => .inl ⟨p, rfl⟩, fun h' ha => ?_, fun p' hp => ?_⟩
      · have := h.calls
        rw [hc] at this
        simpa [Client.rest, jobs] using this
      · have := h.hist
        simp only [this, List.append_assoc]
      · obtain ⟨p', hn⟩ := h.stopw h' ha
        rw [hc] at hn; cases hn
      · rcases hp with hp | hp <;> cases hp
  · next p hc =>
    split at hs
    · cases hs
    · split at hs
      · next hq =>
        cases hs
        refine ⟨?_, h.hist, h.one, h.cnt, h.gone, fun hne => absurd hq.1 hne, fun h' ha => ?_, fun p' hp => ?_⟩
        · have := h.calls
          rw [hc] at this
          simpa [Client.rest, jobs] using this
        · obtain ⟨p', hn⟩ := h.stopw h' ha
          rw [hc] at hn; cases hn
        · rcases hp with hp | hp <;> cases hp
      · cases hs; exact h
  · next p hc =>
    split at hs
    · cases hs
    · split at hs
      · next hst =>
        cases hs
        refine ⟨?_, h.hist, h.one, h.cnt, h.gone, fun _ hf => ?_, fun h' ha => ?_, fun p' hp => ?_⟩
        · have := h.calls
          rw [hc] at this
          simpa [Client.rest, jobs] using this
        · have hf : s.stopped = false := hf
          rw [hst] at hf; cases hf
        · obtain ⟨p', hn⟩ := h.stopw h' ha
          rw [hc] at hn; cases hn
        · rcases hp with hp | hp <;> cases hp
      · cases hs
        refine ⟨?_, h.hist, h.one, h.cnt, fun _ => rfl, (fun _ hf => nomatch hf), fun _ _ => ⟨p, rfl⟩, fun _ _ => rfl⟩
        have := h.calls
        rw [hc] at this
        simpa [Client.rest, jobs] using this
  · next p hc =>
    split at hs
    · cases hs
    · next ws hn =>
      cases hs
      unfold notify at hn
      split at hn
      · split at hn
        · next hw =>
          cases hn
          exact inv_wake h hw (by rw [hc]; rfl) (.inr ⟨⟨p, hc⟩, p, rfl⟩)
        · cases hn
      · next hna =>
        cases hn
        refine ⟨?_, h.hist, h.one, h.cnt, h.gone, fun _ _ hne => ?_, fun _ ha => absurd ha hna, fun p' hp => by rcases hp with hp | hp <;> cases hp⟩
        · have := h.calls
          rw [hc] at this
          exact this
        · obtain ⟨w, ws, hw⟩ := List.exists_cons_of_ne_nil hne
          refine .inr ⟨w, by show w ∈ s.workers; have hw : s.workers = w :: ws := hw; rw [hw]; simp, fun hwa => hna ?_⟩
          have hw : s.workers = w :: ws := hw
          rw [hw, hwa]; simp
  · next p hc =>
    cases hs
    refine ⟨?_, by rw [executing_map_wake]; exact h.hist, by rw [executing_map_wake]; exact h.one, by rw [executing_map_wake]; exact h.cnt,
      fun hg => h.gone (mem_map_wake.2 hg), fun _ hf => ?_, fun _ ha => absurd ha mem_map_wake.1, fun _ _ => h.late p (.inl hc)⟩
    · have := h.calls
      rw [hc] at this
      exact this
    · have hf : s.stopped = false := hf
      rw [h.late p (.inl hc)] at hf; cases hf
  · next p hc =>
    split at hs
    · next hall =>
      cases hs
      have hx : executing s.workers = [] := executing_gone _ (by simpa using hall)
      refine ⟨?_, by have := h.hist; rw [hx] at this; exact this, by simp [executing], by have := h.cnt; rw [hx] at this; exact this,
        fun hg => by simp at hg, fun _ _ hne => absurd rfl hne, fun _ ha => by simp at ha, fun p' hp => by rcases hp with hp | hp <;> cases hp⟩
      have := h.calls
      rw [hc] at this
      exact this
    · cases hs

theorem inv_step {returns calls} {s s' : Pool} {m : Move} (h : Inv calls s) (hs : step returns s m = some s') : Inv calls s' := by
  cases m with
  | worker i => exact inv_work h hs
  | spurious i =>
    simp only [step] at hs
    split at hs
    · next hw =>
      cases hs
      exact inv_wake h hw rfl (.inl rfl)
    · cases hs
  | client who => exact inv_act h hs

theorem exec_cons {returns} {s s' : Pool} {m : Move} {ms : List Move} :
    exec returns s (m :: ms) = some s' ↔ ∃ t, step returns s m = some t ∧ exec returns t ms = some s' := by
  simp only [exec]
  cases step returns s m with
  | none => simp
  | some t => simp

/-- What one move preserves, every schedule preserves. -/
theorem exec_induct {returns} {P : Pool → Prop} (hP : ∀ s s' m, P s → step returns s m = some s' → P s') :
    ∀ {ms : List Move} {s s' : Pool}, P s → exec returns s ms = some s' → P s'
  | [], s, s', h, he => by cases he; exact h
  | m :: ms, s, s', h, he => by
    obtain ⟨t, h1, h2⟩ := exec_cons.1 he
    exact exec_induct hP (hP _ _ _ h h1) h2

theorem Reaches.inv {returns n calls} {s : Pool} (h : Reaches returns n calls s) : Inv calls s := by
  obtain ⟨ms, h⟩ := h
  exact exec_induct (P := Inv calls) (fun _ _ _ => inv_step) (inv_init n calls) h

/-! ## Once stopped, nothing begins -/

theorem begun_stopped {returns} {s s' : Pool} {m : Move} (ho : (executing s.workers).length ≤ 1) (hst : s.stopped = true)
    (hs : step returns s m = some s') : s'.stopped = true ∧ s'.begun = s.begun ∧ (executing s'.workers).length ≤ 1 := by
  cases m with
  | worker i =>
    simp only [step, work, hst, if_true] at hs
    split at hs
    · next hw =>
      obtain ⟨a, b, e, hset⟩ := split_at hw
      split at hs
      · cases hs
      · cases hs
        have he : executing (s.workers.set i .gone) = executing s.workers := by rw [hset, e, executing_append, executing_append]; rfl
        exact ⟨rfl, by simp only [Pool.begun, he], by simp only [he]; exact ho⟩
    · next j hw =>
      obtain ⟨a, b, e, hset⟩ := split_at hw
      split at hs
      · cases hs
        have hx' : executing a = [] ∧ executing b = [] := by
          rw [e, executing_append] at ho
          simp [executing] at ho
          constructor <;> apply List.eq_nil_of_length_eq_zero <;> omega
        have hx : executing s.workers = [j] := by rw [e, executing_append]; simp [executing, hx']
        have he : executing (s.workers.set i .ready) = [] := by rw [hset, executing_append]; simp [executing, hx']
        exact ⟨rfl, by simp only [Pool.begun, he, hx]; simp, by simp only [he]; simp⟩
      · cases hs
    · cases hs
  | spurious i =>
    simp only [step] at hs
    split at hs
    · next hw =>
      obtain ⟨a, b, e, hset⟩ := split_at hw
      cases hs
      have he : executing (s.workers.set i .ready) = executing s.workers := by rw [hset, e, executing_append, executing_append]; rfl
      exact ⟨hst, by simp only [Pool.begun, he], by simp only [he]; exact ho⟩
    · cases hs
  | client who =>
    simp only [step, act] at hs
    split at hs
    · cases hs
    · split at hs
      · cases hs
      · cases hs; exact ⟨hst, rfl, ho⟩
    · split at hs
      · cases hs
      · split at hs <;> cases hs <;> exact ⟨hst, rfl, ho⟩
    · split at hs
      · cases hs
      · cases hs; exact ⟨hst, rfl, ho⟩
    · split at hs
      · cases hs
      · next ws hn =>
        cases hs
        unfold notify at hn
        split at hn
        · split at hn
          · next hw =>
            cases hn
            obtain ⟨a, b, e, hset⟩ := split_at hw
            have he : executing (s.workers.set who .ready) = executing s.workers := by rw [hset, e, executing_append, executing_append]; rfl
            exact ⟨hst, by simp only [Pool.begun, he], by simp only [he]; exact ho⟩
          · cases hn
        · cases hn; exact ⟨hst, rfl, ho⟩
    · cases hs
      exact ⟨hst, by simp only [Pool.begun, executing_map_wake], by simp only [executing_map_wake]; exact ho⟩
    · split at hs
      · next hall =>
        cases hs
        have hx : executing s.workers = [] := executing_gone _ (by simpa using hall)
        exact ⟨hst, by simp only [Pool.begun, hx]; rfl, by simp [executing]⟩
      · cases hs

/-! ## The workers come to rest -/

def Worker.weight : Worker → Nat
  | .ready => 1
  | .asleep => 0
  | .run _ => 2
  | .gone => 0

def weight : List Worker → Nat
  | [] => 0
  | w :: ws => w.weight + weight ws

theorem weight_append (a b : List Worker) : weight (a ++ b) = weight a + weight b := by
  induction a with
  | nil => simp [weight]
  | cons w a ih => simp [weight, ih]; omega

theorem weight_le (ws : List Worker) : weight ws ≤ 2 * ws.length := by
  induction ws with
  | nil => simp [weight]
  | cons w ws ih => cases w <;> simp [weight, Worker.weight] <;> omega

def effort (s : Pool) : Nat := 2 * s.queue.length + weight s.workers

theorem work_spec {returns} {s s' : Pool} {i : Nat} (hs : work returns s i = some s') :
    effort s' < effort s ∧ s'.client = s.client ∧ s'.stopped = s.stopped ∧ s'.workers.length = s.workers.length ∧ s'.added = s.added := by
  unfold work at hs
  split at hs
  · next hw =>
    obtain ⟨a, b, e, hset⟩ := split_at hw
    split at hs
    · cases hs
    · split at hs
      · cases hs
        refine ⟨?_, rfl, rfl, by simp, rfl⟩
        simp only [effort, hset]
        rw [e, weight_append, weight_append]
        simp [weight, Worker.weight]
      · split at hs
        · cases hs
          refine ⟨?_, rfl, rfl, by simp, rfl⟩
          simp only [effort, hset]
          rw [e, weight_append, weight_append]
          simp [weight, Worker.weight]
        · next j q hq =>
          cases hs
          refine ⟨?_, rfl, rfl, by simp, rfl⟩
          simp only [effort, hset, hq]
          rw [e, weight_append, weight_append]
          simp [weight, Worker.weight]; omega
  · next j hw =>
    obtain ⟨a, b, e, hset⟩ := split_at hw
    split at hs
    · cases hs
      refine ⟨?_, rfl, rfl, by simp, rfl⟩
      simp only [effort, hset]
      rw [e, weight_append, weight_append]
      simp [weight, Worker.weight]
    · cases hs
  · cases hs

theorem works_spec {returns} : ∀ {ms : List Move} {s s' : Pool}, OnlyWorkers ms → exec returns s ms = some s' →
    ms.length + effort s' ≤ effort s ∧ s'.client = s.client ∧ s'.stopped = s.stopped ∧ s'.workers.length = s.workers.length ∧ s'.added = s.added
  | [], s, s', _, he => by cases he; simp
  | m :: ms, s, s', ho, he => by
    obtain ⟨t, h1, h2⟩ := exec_cons.1 he
    obtain ⟨i, rfl⟩ := ho m (by simp)
    obtain ⟨a1, a2, a3, a4, a5⟩ := work_spec h1
    obtain ⟨b1, b2, b3, b4, b5⟩ := works_spec (fun m hm => ho m (by simp [hm])) h2
    exact ⟨by simp; omega, b2.trans a2, b3.trans a3, b4.trans a4, b5.trans a5⟩

/-- If no worker can move, nothing is being executed and no worker competes for the mutex. -/
theorem stuck {returns} {s : Pool} (hret : ∀ j ∈ s.added, returns j = true) (hadd : s.added = s.finished ++ executing s.workers ++ s.queue)
    (h : ∀ i, work returns s i = none) : executing s.workers = [] ∧ Worker.ready ∉ s.workers := by
  have hx : executing s.workers = [] := by
    by_contra hne
    have : ∃ (j : Nat), Worker.run j ∈ s.workers := by
      have hb : s.workers.any Worker.runs = true := by
        by_contra hb
        exact hne ((executing_locked _).1 (by simpa using hb))
      obtain ⟨w, hw, hr⟩ := List.any_eq_true.1 hb
      cases w <;> simp [Worker.runs] at hr
      exact ⟨_, hw⟩
    obtain ⟨j, hj⟩ := this
    obtain ⟨i, hi, hij⟩ := List.mem_iff_getElem.1 hj
    have hw : s.workers[i]? = some (.run j) := by rw [List.getElem?_eq_getElem hi, hij]
    obtain ⟨a, b, e, -⟩ := split_at hw
    have hjr : returns j = true := hret j (by rw [hadd, e, executing_append]; simp [executing])
    have := h i
    simp [work, hw, hjr] at this
  refine ⟨hx, fun hr => ?_⟩
  obtain ⟨i, hi, hij⟩ := List.mem_iff_getElem.1 hr
  have hw : s.workers[i]? = some .ready := by rw [List.getElem?_eq_getElem hi, hij]
  have hl : s.locked = false := (executing_locked _).2 hx
  have := h i
  simp only [work, hw, hl, Bool.false_eq_true, if_false] at this
  split at this
  · cases this
  · split at this <;> cases this

/-! ## A job that adds to its own pool -/

theorem held_step {returns} {s s' : Pool} {m : Move} {i j : Nat} (ho : (executing s.workers).length ≤ 1) (hw : s.workers[i]? = some (.run j)) (hj : returns j = false)
    (hs : step returns s m = some s') :
    s'.workers[i]? = some (.run j) ∧ (executing s'.workers).length ≤ 1 ∧ s'.finished = s.finished ∧ s'.added = s.added := by
  have hl : s.locked = true := by
    obtain ⟨a, b, e, -⟩ := split_at hw
    simp [Pool.locked, e, Worker.runs]
  have hset : ∀ {k : Nat}, s.workers[k]? = some .asleep → (s.workers.set k .ready)[i]? = some (.run j) ∧ (executing (s.workers.set k .ready)).length ≤ 1 := by
    intro k hk
    have hne : k ≠ i := fun h => by rw [h, hw] at hk; cases hk
    obtain ⟨a, b, e, hset⟩ := split_at hk
    refine ⟨by rw [List.getElem?_set_ne hne]; exact hw, ?_⟩
    rw [hset, executing_append]
    rw [e, executing_append] at ho
    exact ho
  cases m with
  | worker k =>
    simp only [step, work] at hs
    split at hs
    · rw [if_pos hl] at hs; cases hs
    · next j' hk =>
      split at hs
      · next hj' =>
        have : k = i := by
          by_contra hne
          obtain ⟨a, b, e, -⟩ := split_at hk
          have h1 : Worker.run j ∈ a ++ b := by
            have hi := hw
            rw [e] at hi
            rcases Nat.lt_or_ge i a.length with hlt | hge
            · rw [List.getElem?_append_left hlt] at hi
              exact List.mem_append_left _ (List.mem_of_getElem? hi)
            · rw [List.getElem?_append_right hge] at hi
              rcases hz : i - a.length with _ | z
              · rw [hz] at hi
                simp at hi
                rw [hi] at hj'; rw [hj] at hj'; cases hj'
              · rw [hz] at hi
                simp at hi
                exact List.mem_append_right _ (List.mem_of_getElem? hi)
          have h2 : 1 ≤ (executing (a ++ b)).length := by
            obtain ⟨c, d, e2⟩ := List.append_of_mem h1
            rw [e2, executing_append]; simp [executing]; omega
          rw [e, executing_append] at ho
          rw [executing_append] at h2
          simp [executing] at ho h2
          omega
        rw [this, hw] at hk
        cases hk
        rw [hj] at hj'; cases hj'
      · cases hs
    · cases hs
  | spurious k =>
    simp only [step] at hs
    split at hs
    · next hk =>
      cases hs
      exact ⟨(hset hk).1, (hset hk).2, rfl, rfl⟩
    · cases hs
  | client who =>
    simp only [step, act] at hs
    split at hs
    · cases hs
    · rw [if_pos hl] at hs; cases hs
    · rw [if_pos hl] at hs; cases hs
    · rw [if_pos hl] at hs; cases hs
    · split at hs
      · cases hs
      · next ws hn =>
        cases hs
        unfold notify at hn
        split at hn
        · split at hn
          · next hk =>
            cases hn
            exact ⟨(hset hk).1, (hset hk).2, rfl, rfl⟩
          · cases hn
        · cases hn; exact ⟨hw, ho, rfl, rfl⟩
    · cases hs
      refine ⟨by simp [hw, ThreadPool.wake], by simp only [executing_map_wake]; exact ho, rfl, rfl⟩
    · split at hs
      · next hall =>
        have := (List.all_eq_true.1 hall) _ (List.mem_of_getElem? hw)
        simp at this
      · cases hs

end Verif.ThreadPool
