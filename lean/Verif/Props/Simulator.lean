import Verif.Proof.SimPool
import Verif.Algo.LRU
import Verif.Algo.FIFO
/-!
# C33, C34: the simulator

`Verif/Profiler/Simulator.lean` models the loops of `_simulate` and the thread pool, `Verif/Spec/Simulator.lean` says what should be
reported.
-/

namespace Verif.Props
open Verif Verif.Simulator Verif.Spec.Sim

variable {σ : Type}

/-! ## C34: the counters -/

/-- Every trace has a warm-up part and a measured part. -/
theorem C34_split_exists (p : Params) (tr : List Item) : ∃ w m, Split p tr w m := split_exists p tr

/-- For every cache, every warm-up trace, every trace and every warm-up setting: if the cache can serve all requests of the
warm-up trace and of the trace, giving the answers `aw` up to the end of the warm-up part and `am` afterwards, then the simulation
ends, and it reports: the number of warm-up requests; the number and total size of the requests of the measured part; the number
and total size of those of them answered with a miss; the time of the last request relative to the first; and the object count and
occupied bytes of the cache in the state in which serving everything leaves it. -/
theorem C34_counters (C : Cache σ) (p : Params) (s0 : σ) (warm tr w m : List Item) (hsplit : Split p tr w m)
    (aw am : List Bool) (seed : Nat) (s : σ) (hlen : aw.length = warm.length + w.length)
    (h : serve C 0 s0 (warm ++ tr) = .ok (aw ++ am, seed, s)) :
    Reports C p (Job.init s0 warm tr) (report C warm w m am s) s :=
  reports_spec C p s0 warm tr w m hsplit aw am seed s hlen h

/-- The report is the only one. -/
theorem C34_deterministic (C : Cache σ) (p : Params) (j : Job σ) (st st' : Stat) (s s' : σ) (h : Reports C p j st s)
    (h' : Reports C p j st' s') : st = st' ∧ s = s' := by
  obtain ⟨k, sd, j1, a, d, rfl, rfl⟩ := h
  obtain ⟨k', sd', j2, a', d', rfl, rfl⟩ := h'
  have := alone_unique a a' d d'
  cases this
  exact ⟨rfl, rfl⟩

/-- Misses are at most requests, in number and in bytes. -/
theorem C34_misses_le (C : Cache σ) (warm w m : List Item) (am : List Bool) (s : σ) :
    (report C warm w m am s).nMiss ≤ (report C warm w m am s).nReq ∧
    (report C warm w m am s).missByte ≤ (report C warm w m am s).reqByte := by
  show (missed m am).length ≤ m.length ∧ sizes (missed m am) ≤ sizes m
  induction m generalizing am with
  | nil => exact ⟨by simp [missed], by simp [missed]⟩
  | cons it m ih =>
    cases am with
    | nil => exact ⟨by simp [missed], by simp [missed, sizes]⟩
    | cons b am =>
      rw [missed_cons, sizes_cons]
      obtain ⟨h1, h2⟩ := ih am
      split
      · rw [sizes_cons]; simp only [List.length_cons]; omega
      · simp only [List.length_cons]; omega

/-- A cache without random numbers: what is reported are the answers of `get` to the requests in order. -/
theorem C34_counters_algo (A : Algo σ) (nObj occ : σ → Int) (p : Params) (s0 : σ) (warm tr w m : List Item)
    (hsplit : Split p tr w m) (aw am : List Bool) (s : σ) (hlen : aw.length = warm.length + w.length)
    (h : A.gets s0 ((warm ++ tr).map (fun it => it.req)) = .ok (aw ++ am, s)) :
    Reports (Cache.ofAlgo A nObj occ) p (Job.init s0 warm tr) (report (Cache.ofAlgo A nObj occ) warm w m am s) s :=
  reports_spec _ p s0 warm tr w m hsplit aw am 0 s hlen (serve_ofAlgo _ 0 s0 _ h)

/-- Without warm-up everything is measured. -/
theorem C34_no_warmup (A : Algo σ) (nObj occ : σ → Int) (s0 : σ) (tr : List Item) (am : List Bool) (s : σ)
    (h : A.gets s0 (tr.map (fun it => it.req)) = .ok (am, s)) :
    ∃ st, Reports (Cache.ofAlgo A nObj occ) ⟨0, 0⟩ (Job.init s0 [] tr) st s ∧ st.nWarmup = 0 ∧ st.nReq = tr.length ∧
      st.reqByte = sizes tr ∧ st.nMiss = (missed tr am).length ∧ st.missByte = sizes (missed tr am) ∧
      st.nObj = nObj s ∧ st.occ = occ s :=
  ⟨_, C34_counters_algo A nObj occ ⟨0, 0⟩ s0 [] tr [] tr
    ⟨rfl, by simp, by intro h; simp at h, fun _ => rfl⟩ [] am s rfl (by simpa using h), rfl, rfl, rfl, rfl, rfl, rfl, rfl⟩

/-- the LRU cache as the simulator sees it -/
def lruCache : Cache LRU.State := Cache.ofAlgo LRU.algo (fun s => s.base.nObj) (fun s => s.base.occ)

def simTrace : List Item :=
  [⟨100, ⟨1, 4, -2⟩⟩, ⟨101, ⟨2, 3, -2⟩⟩, ⟨103, ⟨1, 4, -2⟩⟩, ⟨107, ⟨3, 3, -2⟩⟩, ⟨108, ⟨4, 2, -2⟩⟩, ⟨110, ⟨1, 4, -2⟩⟩, ⟨110, ⟨2, 3, -2⟩⟩]

-- a warm-up trace of one request, two warm-up requests by number and one more by time, four measured requests: object 3 misses,
-- 4 misses, 1 hits, 2 was evicted and misses
example : ∃ s, Reports lruCache ⟨2, 5⟩ (Job.init (LRU.init 10 0 .none) [⟨90, ⟨7, 2, -2⟩⟩] simTrace)
    { nWarmup := 4, nReq := 4, reqByte := 12, nMiss := 3, missByte := 8, rtime := 10, nObj := 3, occ := 9 } s := by
  obtain ⟨s, hs, h1, h2⟩ : ∃ s : LRU.State, LRU.algo.gets (LRU.init 10 0 .none)
      ((([⟨90, ⟨7, 2, -2⟩⟩] : List Item) ++ simTrace).map (fun it => it.req)) = .ok ([false, false, false, true] ++ [false, false, true, false], s) ∧
      s.base.nObj = 3 ∧ s.base.occ = 9 := ⟨_, rfl, rfl, rfl⟩
  have hsplit : Split ⟨2, 5⟩ simTrace (simTrace.take 3) (simTrace.drop 3) := ⟨rfl, ?_, ?_, by decide⟩
  · have := C34_counters_algo LRU.algo (fun s => s.base.nObj) (fun s => s.base.occ) ⟨2, 5⟩ (LRU.init 10 0 .none) [⟨90, ⟨7, 2, -2⟩⟩]
      simTrace _ _ hsplit [false, false, false, true] [false, false, true, false] s rfl hs
    refine ⟨s, ?_⟩
    have hr : report lruCache [⟨90, ⟨7, 2, -2⟩⟩] (simTrace.take 3) (simTrace.drop 3) [false, false, true, false] s =
        { nWarmup := 4, nReq := 4, reqByte := 12, nMiss := 3, missByte := 8, rtime := 10, nObj := s.base.nObj, occ := s.base.occ } := rfl
    rw [h1, h2] at hr
    rw [← hr]
    exact this
  · intro i it hi
    have : i < 3 := by
      by_contra hc
      have : (simTrace.take 3)[i]? = none := List.getElem?_eq_none (by simp [simTrace]; omega)
      rw [this] at hi; cases hi
    match i, this with
    | 0, _ => left; show 0 < 2; omega
    | 1, _ => left; show 1 < 2; omega
    | 2, _ => right; simp [simTrace] at hi; subst hi; simp [startOf, simTrace]
  · intro _ it hi
    simp [simTrace] at hi
    subst hi
    simp [Warms, startOf, simTrace]

/-! ## C33: schedules -/

/-- Whatever the schedule, when the pool has finished, the result of every task is the one it reports when it runs alone (and every
task has reported progress once). -/
theorem C33_scheduleIndependent (C : Nat → Cache σ) (p : Params) (n threads : Nat) (seeds : Nat → Nat) (jobs : Nat → Job σ)
    (sched : List Action) (g : World σ) (h : (World.init seeds jobs).run C p n threads sched = some (.ok g))
    (hf : g.Final n threads) :
    (∀ i < n, Reports (C i) p (jobs i) (g.job i).stat (g.job i).cache) ∧ g.progress = n := by
  obtain ⟨fin, f, t, hinv⟩ := inv_run sched _ g _ _ _ _ (inv_init C p n threads seeds jobs) h
  refine ⟨fun i hi => ?_, final_progress hinv hf⟩
  obtain ⟨-, -, hd, sd, ha⟩ := hinv.fins i ((final_all hinv hf i).2 hi)
  exact ⟨_, sd, _, ha, hd, rfl, rfl⟩

/-- Two schedules, with different numbers of threads, give the same results. -/
theorem C33_schedulesAgree (C : Nat → Cache σ) (p : Params) (n threads threads' : Nat) (seeds seeds' : Nat → Nat)
    (jobs : Nat → Job σ) (sched sched' : List Action) (g g' : World σ)
    (h : (World.init seeds jobs).run C p n threads sched = some (.ok g)) (hf : g.Final n threads)
    (h' : (World.init seeds' jobs).run C p n threads' sched' = some (.ok g')) (hf' : g'.Final n threads') :
    ∀ i < n, (g.job i).stat = (g'.job i).stat := fun i hi =>
  (C34_deterministic (C i) p (jobs i) _ _ _ _ ((C33_scheduleIndependent C p n threads seeds jobs sched g h hf).1 i hi)
    ((C33_scheduleIndependent C p n threads' seeds' jobs sched' g' h' hf').1 i hi)).1

/-- In every slot of the result array stands what serving the trace with that cache from its initial state gives. -/
theorem C33_slots (A : Nat → Algo σ) (nObj occ : σ → Int) (p : Params) (n threads : Nat) (seeds : Nat → Nat) (s0 : Nat → σ)
    (warm tr w m : List Item) (hsplit : Split p tr w m) (sched : List Action) (g : World σ)
    (h : (World.init seeds (fun i => Job.init (s0 i) warm tr)).run (fun i => Cache.ofAlgo (A i) nObj occ) p n threads sched =
      some (.ok g)) (hf : g.Final n threads) (i : Nat) (hi : i < n) (aw am : List Bool) (s : σ)
    (hlen : aw.length = warm.length + w.length)
    (hg : (A i).gets (s0 i) ((warm ++ tr).map (fun it => it.req)) = .ok (aw ++ am, s)) :
    (g.job i).stat = report (Cache.ofAlgo (A i) nObj occ) warm w m am s ∧ (g.job i).cache = s :=
  C34_deterministic _ p _ _ _ _ _
    ((C33_scheduleIndependent _ p n threads seeds _ sched g h hf).1 i hi)
    (C34_counters_algo (A i) nObj occ p (s0 i) warm tr w m hsplit aw am s hlen hg)

/-- A schedule goes wrong only if one of the tasks goes wrong when it runs alone. -/
theorem C33_noNewFaults (C : Nat → Cache σ) (p : Params) (n threads : Nat) (seeds : Nat → Nat) (jobs : Nat → Job σ)
    (hok : ∀ i < n, ∀ k, ∃ r, alone (C i) p (jobs i) k = .ok r) (sched : List Action) (e : Fault) :
    (World.init seeds jobs).run C p n threads sched ≠ some (.error e) := by
  intro h
  obtain ⟨i, k, hi, ha⟩ := error_run sched _ _ _ _ _ e (inv_init C p n threads seeds jobs) h
  obtain ⟨r, hr⟩ := hok i hi k
  rw [hr] at ha; cases ha

/-- The pool never gets stuck: as long as it has not finished, some thread can make a step. -/
theorem C33_noDeadlock (C : Nat → Cache σ) (p : Params) (n threads : Nat) (ht : 0 < threads) (seeds : Nat → Nat)
    (jobs : Nat → Job σ) (sched : List Action) (g : World σ)
    (h : (World.init seeds jobs).run C p n threads sched = some (.ok g)) (hf : ¬ g.Final n threads) :
    ∃ a r, g.act C p n threads a = some r := by
  obtain ⟨fin, f, t, hinv⟩ := inv_run sched _ g _ _ _ _ (inv_init C p n threads seeds jobs) h
  exact enabled hinv ht hf

/-- If task `i` alone ends within `K i` steps, no schedule is longer than `3 * n + ∑ K i`: the pool always finishes. -/
theorem C33_terminates (C : Nat → Cache σ) (p : Params) (n threads : Nat) (seeds : Nat → Nat) (jobs : Nat → Job σ)
    (K : Nat → Nat) (hK : ∀ i < n, ∃ sd j, alone (C i) p (jobs i) (K i) = .ok (sd, j) ∧ j.pc = .done)
    (sched : List Action) (g : World σ) (h : (World.init seeds jobs).run C p n threads sched = some (.ok g)) :
    sched.length ≤ 3 * n + ∑ i ∈ Finset.range n, K i := by
  obtain ⟨fin, f, t, hinv⟩ := inv_run sched _ g _ _ _ _ (inv_init C p n threads seeds jobs) h
  have := run_bound hinv K hK
  omega

-- two LRU caches of sizes 3 and 10 on two threads, steps interleaved, the first task taken second
def simJobs (i : Nat) : Job LRU.State := Job.init (LRU.init (3 + 7 * i) 0 .none) [] (simTrace.take 3)
def simSched : List Action :=
  [.push, .push, .take 1 1, .take 0 0, .work 0, .work 1, .work 1, .work 0, .work 1, .work 0, .work 0, .work 0, .work 1, .work 1,
   .work 0, .work 0, .work 0, .work 1, .work 1, .work 1]

example : ∃ g, (World.init (fun w => 17 * w) simJobs).run (fun _ => lruCache) ⟨0, 0⟩ 2 2 simSched = some (.ok g) ∧ g.Final 2 2 ∧
    (g.job 0).stat = { nReq := 3, reqByte := 11, nMiss := 3, missByte := 11, rtime := 3, nObj := 1, occ := 3 } ∧
    (g.job 1).stat = { nReq := 3, reqByte := 11, nMiss := 2, missByte := 7, rtime := 3, nObj := 2, occ := 7 } := by
  refine ⟨_, rfl, ⟨rfl, rfl, ?_⟩, rfl, rfl⟩
  intro w hw
  match w, hw with
  | 0, _ => rfl
  | 1, _ => rfl

/-- `simulate_at_multi_sizes_with_step_size` simulates the multiples of the step from the step itself up to the first one that is
at least the cache size. -/
theorem C33_stepSizes (cacheSize step : Nat) (hstep : 0 < step) (x : Nat) :
    x ∈ stepSizes cacheSize step ↔ ∃ k, 0 < k ∧ x = step * k ∧ step * (k - 1) < cacheSize := by
  unfold stepSizes
  simp only [List.mem_map, List.mem_range]
  constructor
  · rintro ⟨i, hi, rfl⟩
    refine ⟨i + 1, Nat.succ_pos _, rfl, ?_⟩
    rw [Nat.add_sub_cancel]
    have := (Nat.le_div_iff_mul_le hstep).1 (Nat.succ_le_of_lt hi)
    rw [Nat.succ_mul, Nat.mul_comm] at this
    omega
  · rintro ⟨k, hk, rfl, hlt⟩
    refine ⟨k - 1, ?_, by congr 1; omega⟩
    rw [← Nat.succ_le_iff, Nat.le_div_iff_mul_le hstep, Nat.succ_mul, Nat.mul_comm]
    omega

example : stepSizes 10 4 = [4, 8, 12] := rfl

end Verif.Props
