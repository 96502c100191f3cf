import Verif.Base.CacheBase
import Verif.Utils.MyMath
/-!
# libCacheSim/profiler/simulator.c

One simulation (`_simulate`) is a small-step machine, one step per loop iteration; the thread pool interleaves the machines.
A reader is the list of the requests it delivers (`Verif/Reader`); every task clones the reader, so each task has its own copy of
the list.  Integer counters do not wrap in the model.  Names, log messages and the progress bar are left out.
-/

namespace Verif.Simulator
open Verif

/-- a request as the reader delivers it: `clock_time` and the fields the cache reads -/
structure Item where
  time : Int
  req : Req
deriving DecidableEq, Repr

/-- a cache as `_simulate` sees it: `cache->get` with the thread's `rand_seed` before and after, and the fields `n_obj` and
`occupied_byte` (simulator.c:121-122 reads the fields, not `get_n_obj`/`get_occupied_byte`) -/
structure Cache (σ : Type) where
  get : Nat → σ → Req → Res (Bool × Nat × σ)
  nObj : σ → Int
  occ : σ → Int

/-- a cache that does not use random numbers -/
def Cache.ofAlgo {σ : Type} (A : Algo σ) (nObj occ : σ → Int) : Cache σ :=
  ⟨fun seed s r => A.get s r >>= fun p => .ok (p.1, seed, p.2), nObj, occ⟩

/-- `cache_stat_t`, cache.h:66-90 -/
structure Stat where
  nWarmup : Nat := 0
  nReq : Nat := 0
  reqByte : Nat := 0
  nMiss : Nat := 0
  missByte : Nat := 0
  rtime : Int := 0
  nObj : Int := 0
  occ : Int := 0
deriving DecidableEq, Repr

/-- `n_warmup_req` and `warmup_sec` of `sim_mt_params_t`, simulator.c:23-35 -/
structure Params where
  nWarmup : Nat
  sec : Int
deriving DecidableEq, Repr

/-- where `_simulate` is -/
inductive Pc where
  | warmReader | start | warmTrace | main | report | done
deriving DecidableEq, Repr

/-- the local variables of `_simulate`, `caches[idx]` and `result[idx]` -/
structure Job (σ : Type) where
  pc : Pc
  cache : σ
  /-- what the clone of `warmup_reader` has still to deliver -/
  warm : List Item
  /-- the current request and what the clone of the reader has still to deliver -/
  tr : List Item
  /-- `req->clock_time` -/
  clock : Int
  startTs : Int
  nWarm : Nat
  stat : Stat

variable {σ : Type}

/-- the start of `_simulate`, simulator.c:37-47; without warm-up reader its list is empty; `new_request` has clock_time 0 -/
def Job.init (cache : σ) (warm tr : List Item) : Job σ := ⟨.warmReader, cache, warm, tr, 0, 0, 0, {}⟩

/-- one step of `_simulate` on a thread whose `rand_seed` is `seed` -/
def jobStep (C : Cache σ) (p : Params) (seed : Nat) (j : Job σ) : Res (Nat × Job σ) :=
  match j.pc with
  | .warmReader => -- 50-58
    match j.warm with
    | [] => .ok (seed, { j with pc := .start })
    | it :: rest =>
      C.get seed j.cache it.req >>= fun r =>
      .ok (r.2.1, { j with cache := r.2.2, warm := rest, clock := it.time, stat := { j.stat with nWarmup := j.stat.nWarmup + 1 } })
  | .start => -- 66-70
    let ts := match j.tr with | [] => j.clock | it :: _ => it.time
    .ok (seed, { j with startTs := ts, pc := if p.nWarmup > 0 ∨ p.sec > 0 then .warmTrace else .main })
  | .warmTrace => -- 71-79
    match j.tr with
    | [] => .ok (seed, { j with pc := .main, stat := { j.stat with nWarmup := j.stat.nWarmup + j.nWarm } })
    | it :: rest =>
      if j.nWarm < p.nWarmup ∨ it.time - j.startTs < p.sec then
        C.get seed j.cache it.req >>= fun r =>
        .ok (r.2.1, { j with cache := r.2.2, tr := rest, clock := it.time - j.startTs, nWarm := j.nWarm + 1 })
      else .ok (seed, { j with pc := .main, stat := { j.stat with nWarmup := j.stat.nWarmup + j.nWarm } })
  | .main => -- 87-97
    match j.tr with
    | [] => .ok (seed, { j with pc := .report })
    | it :: rest =>
      C.get seed j.cache it.req >>= fun r =>
      let st := { j.stat with nReq := j.stat.nReq + 1, reqByte := j.stat.reqByte + it.req.size }
      let st := if r.1 = false then { st with nMiss := st.nMiss + 1, missByte := st.missByte + it.req.size } else st
      .ok (r.2.1, { j with cache := r.2.2, tr := rest, clock := it.time - j.startTs, stat := st })
  | .report => -- 120-122
    .ok (seed, { j with pc := .done, stat := { j.stat with rtime := j.clock, nObj := C.nObj j.cache, occ := C.occ j.cache } })
  | .done => .ok (seed, j)

/-- `k` steps of a task that has a thread to itself; `set_rand_seed(0)` at the start (simulator.c:40) -/
def alone (C : Cache σ) (p : Params) (j : Job σ) : Nat → Res (Nat × Job σ)
  | 0 => .ok (0, j)
  | k + 1 => alone C p j k >>= fun r => jobStep C p r.1 r.2

/-- a thread of the pool: its `rand_seed` (thread local, mymath.c:11) and the task it is executing -/
structure Worker where
  seed : Nat
  task : Option Nat
deriving DecidableEq, Repr

/-- the whole process while `simulate_at_multi_sizes` (172-234) or `simulate_with_multi_caches` (248-313) runs -/
structure World (σ : Type) where
  /-- tasks pushed so far by the main thread, 197-204, 287-293 -/
  pushed : Nat
  /-- pushed and not yet taken -/
  queue : List Nat
  worker : Nat → Worker
  /-- `caches[i]`, `result[i]` and the locals of task `i` -/
  job : Nat → Job σ
  progress : Nat

inductive Action where
  /-- the main thread pushes the next task -/
  | push
  /-- thread `w` takes task `i` from the queue -/
  | take (w i : Nat)
  /-- thread `w` executes one step of its task, or, if the task is over, reports progress and becomes idle -/
  | work (w : Nat)
deriving DecidableEq, Repr

def setAt {α : Type} (f : Nat → α) (i : Nat) (x : α) : Nat → α := fun j => if j = i then x else f j

/-- `n` tasks on `threads` threads; `none` if the action is not possible in this state -/
def World.act (C : Nat → Cache σ) (p : Params) (n threads : Nat) (g : World σ) : Action → Option (Res (World σ))
  | .push => if g.pushed < n then some (.ok { g with pushed := g.pushed + 1, queue := g.queue ++ [g.pushed] }) else none
  | .take w i =>
    if w < threads ∧ (g.worker w).task = none ∧ i ∈ g.queue then
      some (.ok { g with queue := g.queue.erase i, worker := setAt g.worker w ⟨0, some i⟩ })
    else none
  | .work w =>
    if w < threads then
      match (g.worker w).task with
      | none => none
      | some i =>
        if (g.job i).pc = .done then
          some (.ok { g with worker := setAt g.worker w ⟨(g.worker w).seed, none⟩, progress := g.progress + 1 })
        else
          some (jobStep (C i) p (g.worker w).seed (g.job i) >>= fun r =>
            .ok { g with worker := setAt g.worker w ⟨r.1, some i⟩, job := setAt g.job i r.2 })
    else none

/-- a schedule: `none` if some action was not possible -/
def World.run (C : Nat → Cache σ) (p : Params) (n threads : Nat) : World σ → List Action → Option (Res (World σ))
  | g, [] => some (.ok g)
  | g, a :: as =>
    match g.act C p n threads a with
    | none => none
    | some (.error e) => some (.error e)
    | some (.ok g') => World.run C p n threads g' as

/-- before the first push; the threads' seeds may be anything -/
def World.init (seeds : Nat → Nat) (jobs : Nat → Job σ) : World σ := ⟨0, [], fun w => ⟨seeds w, none⟩, jobs, 0⟩

/-- `g_thread_pool_free(pool, FALSE, TRUE)` (221, 307) returns when everything pushed has been executed -/
def World.Final (n threads : Nat) (g : World σ) : Prop :=
  g.pushed = n ∧ g.queue = [] ∧ ∀ w < threads, (g.worker w).task = none

/-- the sizes of `simulate_at_multi_sizes_with_step_size`, 139-155: `ceil(cache_size / step)` of them (computed in `double`,
exact below 2^53), `step * (i + 1)` -/
def stepSizes (cacheSize step : Nat) : List Nat := (List.range ((cacheSize + step - 1) / step)).map (fun i => step * (i + 1))

end Verif.Simulator
