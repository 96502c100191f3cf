import Verif.Proof.ThreadPool
/-!
# C98: the thread pool, under every schedule

The theorems range over every number of threads, every sequence of calls, every choice of the jobs that return, and every schedule, with wake-ups
that nobody asked for.
-/

namespace Verif.ThreadPool

/-- The calls of the examples. -/
def demoCalls : List Call := [.add 7, .wait, .add 8, .shutdown]

/-- **C98.** No job is lost, repeated or invented while the pool runs: the jobs that have been begun are, in the order of the calls, the first ones of those the
client has added, and the others are in the queue; what has been added are the first jobs of the calls. -/
theorem C98_inOrder_ThreadPool {returns n calls} {s : Pool} (h : Reaches returns n calls s) :
    s.begun ++ s.queue = s.added ∧ s.added ++ jobs s.client.rest = jobs calls ∧ s.finished <+: s.begun :=
  ⟨h.inv.hist.symm, h.inv.calls, ⟨_, rfl⟩⟩

example : ∃ s, Reaches (fun _ => true) 2 demoCalls s ∧ s.begun = [7] ∧ s.queue = [8] :=
  ⟨_, ⟨[.worker 0, .client 0, .client 0, .worker 1, .worker 1, .client 0, .client 0], rfl⟩, by decide, by decide⟩

/-- **C98.** The jobs are executed one at a time, whatever the number of threads: the mutex is held while a job runs. -/
theorem C98_oneAtATime_ThreadPool {returns n calls} {s : Pool} (h : Reaches returns n calls s) :
    (executing s.workers).length ≤ 1 ∧ s.running = (executing s.workers).length := ⟨h.inv.one, h.inv.cnt⟩

example : ∃ s, Reaches (fun _ => true) 2 demoCalls s ∧ executing s.workers = [7] :=
  ⟨_, ⟨[.worker 0, .client 0, .client 0, .worker 1], rfl⟩, by decide⟩

/-- **C98.** `wait_for_finish` returns only when every job added so far is finished. -/
theorem C98_waits_ThreadPool {returns n calls} {s s' : Pool} {p : List Call} {who : Nat} (h : Reaches returns n calls s) (hc : s.client = .go (.wait :: p))
    (hs : step returns s (.client who) = some s') (hr : s'.client = .go p) : s'.finished = s'.added ∧ s'.added ++ jobs p = jobs calls := by
  have hq : s.queue = [] ∧ s.running = 0 ∧ s' = { s with client := .go p } := by
    simp only [step, act, hc] at hs
    split at hs
    · cases hs
    · split at hs
      · next hq => cases hs; exact ⟨hq.1, hq.2, rfl⟩
      · cases hs
        rw [hc] at hr
        have : (Call.wait :: p).length = p.length := by injection hr with hr; rw [hr]
        simp at this
  obtain ⟨h1, h2, rfl⟩ := hq
  have hx : executing s.workers = [] := by
    have := h.inv.cnt
    apply List.eq_nil_of_length_eq_zero
    omega
  have h3 := h.inv.hist
  have h4 := h.inv.calls
  rw [h1, hx] at h3
  rw [hc] at h4
  exact ⟨by simpa using h3.symm, h4⟩

example : ∃ s s', Reaches (fun _ => true) 2 demoCalls s ∧ s.client = .go [.wait, .add 8, .shutdown] ∧ step (fun _ => true) s (.client 0) = some s' ∧
    s'.client = .go [.add 8, .shutdown] ∧ s'.finished = [7] :=
  ⟨_, _, ⟨[.worker 0, .client 0, .client 0, .worker 1, .worker 1], rfl⟩, by decide, rfl, by decide, by decide⟩

/-- **C98.** No notification gets lost.  Consider a pool with at least one thread that has not been shut down, whose client is not inside a call, and jobs that return.  From there, whichever worker the
scheduler picks, the workers come to rest after at most two moves per queued job and two per thread, and when no worker can move all the jobs are finished. -/
theorem C98_completes_ThreadPool {returns n calls} {s s' : Pool} {ms : List Move} (h : Reaches returns n calls s) (hn : 0 < s.workers.length) (hst : s.stopped = false)
    (hc : s.client.outside = true) (hret : ∀ j ∈ jobs calls, returns j = true) (hm : OnlyWorkers ms) (he : exec returns s ms = some s') :
    ms.length ≤ 2 * s.queue.length + 2 * s.workers.length ∧
    ((∀ i, step returns s' (.worker i) = none) → s'.finished = s.added ∧ s'.queue = []) := by
  obtain ⟨a1, a2, a3, a4, a5⟩ := works_spec hm he
  have hw := weight_le s.workers
  refine ⟨by simp only [effort] at a1; omega, fun hno => ?_⟩
  have hi : Inv calls s' := exec_induct (P := Inv calls) (fun _ _ _ => inv_step) h.inv he
  obtain ⟨hx, hr⟩ := stuck (fun j hj => hret j (by rw [← hi.calls]; exact List.mem_append_left _ hj)) hi.hist hno
  have hq : s'.queue = [] := by
    by_contra hq
    rcases hi.wake hq (a3.trans hst) (fun h0 => by rw [h0] at a4; simp at a4; omega) with ⟨p, hp⟩ | ⟨w, hw, hwa⟩
    · rw [a2] at hp; rw [hp] at hc; cases hc
    · cases w with
      | ready => exact hr hw
      | asleep => exact hwa rfl
      | run j =>
        obtain ⟨c, d, e⟩ := List.append_of_mem hw
        rw [e, executing_append] at hx
        simp [executing] at hx
      | gone =>
        have := hi.gone hw
        rw [a3, hst] at this; cases this
  have h3 := hi.hist
  rw [hx, hq, a5] at h3
  exact ⟨by simpa using h3.symm, hq⟩

/-- Both threads sleep when two jobs are added, and only one of the notifications finds a thread that has not been woken up. -/
example : ∃ s s' ms, Reaches (fun _ => true) 2 [.add 7, .add 8, .wait] s ∧ s.workers = [.ready, .ready] ∧ s.queue = [7, 8] ∧ OnlyWorkers ms ∧
    exec (fun _ => true) s ms = some s' ∧ (∀ i, step (fun _ => true) s' (.worker i) = none) ∧ s'.finished = [7, 8] ∧ s'.workers = [.asleep, .asleep] :=
  ⟨_, _, [.worker 0, .worker 0, .worker 1, .worker 1, .worker 0, .worker 1],
    ⟨[.worker 0, .worker 1, .client 0, .client 1, .client 0, .client 0], rfl⟩, by decide, by decide, by simp [OnlyWorkers], rfl, by
      intro i
      rcases i with _ | _ | i <;> rfl, by decide, by decide⟩

/-- **C98.** After `shutdown` has taken effect no further job begins, whatever the client does; a job that is being executed is still finished. -/
theorem C98_stops_ThreadPool {returns n calls} {s s' : Pool} {ms : List Move} (h : Reaches returns n calls s) (hst : s.stopped = true)
    (he : exec returns s ms = some s') : s'.begun = s.begun :=
  (exec_induct (P := fun t => t.stopped = true ∧ t.begun = s.begun ∧ (executing t.workers).length ≤ 1) (fun t t' m ht hs => by
    obtain ⟨h1, h2, h3⟩ := begun_stopped ht.2.2 ht.1 hs
    exact ⟨h1, h2.trans ht.2.1, h3⟩) ⟨hst, rfl, h.inv.one⟩ he).2.1

example : ∃ s, Reaches (fun _ => true) 1 [.add 7, .shutdown, .add 8] s ∧ s.stopped = true ∧ s.queue = [7, 8] ∧ s.begun = [] :=
  ⟨_, ⟨[.client 0, .client 0, .client 0, .client 0, .worker 0, .client 0, .client 0], rfl⟩, by decide, by decide, by decide⟩

/-- **C98.** `shutdown` comes to an end: once the threads have been notified, whichever of them the scheduler picks, they come to rest after finitely many moves, and
then all have returned and the call joins them. -/
theorem C98_shutdownReturns_ThreadPool {returns n calls} {s s' : Pool} {p : List Call} {ms : List Move} (h : Reaches returns n calls s) (hc : s.client = .join p)
    (hret : ∀ j ∈ jobs calls, returns j = true) (hm : OnlyWorkers ms) (he : exec returns s ms = some s') :
    ms.length ≤ 2 * s.queue.length + 2 * s.workers.length ∧
    ((∀ i, step returns s' (.worker i) = none) → ∃ t, step returns s' (.client 0) = some t ∧ t.client = .go p ∧ t.workers = []) := by
  obtain ⟨a1, a2, a3, a4, a5⟩ := works_spec hm he
  have hw := weight_le s.workers
  refine ⟨by simp only [effort] at a1; omega, fun hno => ?_⟩
  have hi : Inv calls s' := exec_induct (P := Inv calls) (fun _ _ _ => inv_step) h.inv he
  obtain ⟨hx, hr⟩ := stuck (fun j hj => hret j (by rw [← hi.calls]; exact List.mem_append_left _ hj)) hi.hist hno
  have hall : s'.workers.all (· = .gone) = true := by
    rw [List.all_eq_true]
    intro w hw
    cases w with
    | ready => exact absurd hw hr
    | asleep =>
      obtain ⟨q, hq⟩ := hi.stopw (a3.trans (h.inv.late p (.inr hc))) hw
      rw [a2, hc] at hq; cases hq
    | run j =>
      obtain ⟨c, d, e⟩ := List.append_of_mem hw
      rw [e, executing_append] at hx
      simp [executing] at hx
    | gone => simp
  have hc' : s'.client = .join p := a2.trans hc
  refine ⟨{ s' with workers := [], client := .go p }, ?_, rfl, rfl⟩
  simp only [step, act, hc']
  rw [if_pos hall]

example : ∃ s s' ms, Reaches (fun _ => true) 2 [.shutdown] s ∧ s.client = .join [] ∧ OnlyWorkers ms ∧ exec (fun _ => true) s ms = some s' ∧
    s'.workers = [.gone, .gone] :=
  ⟨_, _, [.worker 1, .worker 0], ⟨[.worker 1, .client 0, .client 0], rfl⟩, by decide, by simp [OnlyWorkers], rfl, by decide⟩

/-- **C98 fails at shutdown:** the jobs still queued are dropped, although no call ever returned an error: `add_Job` and `shutdown` have returned, and the job is not executed, nor will be. -/
theorem C98_shutdownDrops_fails_ThreadPool : ∃ s, Reaches (fun _ => true) 1 [.add 7, .shutdown] s ∧ s.client = .go [] ∧ s.added = [7] ∧
    ∀ ms s', exec (fun _ => true) s ms = some s' → s'.finished = [] := by
  have h : Reaches (fun _ => true) 1 [.add 7, .shutdown] ⟨[7], true, 0, [], .go [], [7], []⟩ :=
    ⟨[.client 0, .client 0, .client 0, .client 0, .worker 0, .client 0], rfl⟩
  refine ⟨_, h, rfl, rfl, fun ms s' he => ?_⟩
  have := C98_stops_ThreadPool h rfl he
  simp only [Pool.begun, executing] at this
  exact (List.append_eq_nil_iff.1 this).1

/-- **C98 fails for a job that uses the pool:** it waits for the mutex that is held for it, so that it is never finished, no job is ever added or finished again, and `wait_for_finish` never returns. -/
theorem C98_nested_fails_ThreadPool {returns n calls} {s s' : Pool} {j : Nat} {ms : List Move} (h : Reaches returns n calls s) (hj : returns j = false)
    (hx : j ∈ executing s.workers) (he : exec returns s ms = some s') : s'.finished = s.finished ∧ s'.added = s.added ∧ j ∈ executing s'.workers := by
  have hmem : ∀ ws : List Worker, j ∈ executing ws → Worker.run j ∈ ws := by
    intro ws
    induction ws with
    | nil => simp [executing]
    | cons w ws ih =>
      cases w <;> simp [executing]
      all_goals first | exact ih | exact fun h => h.imp id ih
  obtain ⟨i, hi, hij⟩ := List.mem_iff_getElem.1 (hmem _ hx)
  have hw : s.workers[i]? = some (.run j) := by rw [List.getElem?_eq_getElem hi, hij]
  obtain ⟨h1, h2, h3, h4⟩ := exec_induct (P := fun t => t.workers[i]? = some (.run j) ∧ (executing t.workers).length ≤ 1 ∧ t.finished = s.finished ∧ t.added = s.added)
    (fun t t' m ht hs => by
      obtain ⟨a1, a2, a3, a4⟩ := held_step ht.2.1 ht.1 hj hs
      exact ⟨a1, a2, a3.trans ht.2.2.1, a4.trans ht.2.2.2⟩) ⟨hw, h.inv.one, rfl, rfl⟩ he
  refine ⟨h3, h4, ?_⟩
  obtain ⟨c, d, e, -⟩ := split_at h1
  rw [e, executing_append]; simp [executing]

example : ∃ s, Reaches (fun j => j != 7) 4 [.add 7, .add 8, .wait] s ∧ 7 ∈ executing s.workers :=
  ⟨_, ⟨[.client 0, .client 0, .worker 2], rfl⟩, by decide⟩

/-- **C98 fails without threads:** a pool made for no thread accepts a job, and `wait_for_finish` then never returns. -/
theorem C98_noThreads_fails_ThreadPool {returns} {j : Nat} {p : List Call} {s : Pool} (h : Reaches returns 0 (.add j :: .wait :: p) s) :
    Call.wait ∈ s.client.rest := by
  obtain ⟨ms, h⟩ := h
  have := exec_induct (P := fun t => t.workers = [] ∧ (t.client = .go (.add j :: .wait :: p) ∨ t.client = .notifyOne (.wait :: p) ∧ t.queue = [j] ∨
      t.client = .go (.wait :: p) ∧ t.queue = [j]) ∧ (t.client = .go (.add j :: .wait :: p) → t.queue = [])) (fun t t' m ht hs => by
    obtain ⟨hw, hc, hq⟩ := ht
    cases m with
    | worker i => simp [step, work, hw] at hs
    | spurious i => simp [step, hw] at hs
    | client who =>
      rcases hc with hc | ⟨hc, hq'⟩ | ⟨hc, hq'⟩
      · have hq := hq hc
        simp [step, act, hc, Pool.locked, hw, hq] at hs
        subst hs
        simp
      · simp [step, act, hc, notify, hw] at hs
        subst hs
        simp [hq']
      · simp [step, act, hc, Pool.locked, hw, hq'] at hs
        subst hs
        simp [hc, hq', hw]) ⟨rfl, .inl rfl, fun _ => rfl⟩ h
  rcases this.2.1 with hc | ⟨hc, -⟩ | ⟨hc, -⟩ <;> rw [hc] <;> simp [Client.rest]

example : ∃ s, Reaches (fun _ => true) 0 [.add 7, .wait] s ∧ s.client = .go [.wait] ∧ s.added = [7] :=
  ⟨_, ⟨[.client 0, .client 0, .client 0], rfl⟩, by decide, by decide⟩

end Verif.ThreadPool
