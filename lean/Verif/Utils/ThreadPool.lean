/-!
# The thread pool, libCacheSim/traceAnalyzer/utils/threadPool.{h,cpp}

Worker threads take jobs from a queue that is protected by a mutex; a client thread adds jobs, waits for them and shuts the pool down.  A
schedule is a list of moves; every critical section of the code is one move, except that the execution of a job is not:
`wait_job` holds the mutex while the job runs, so it is taken in one move and finished in another one.

Not modelled: the output, and the unprotected `job_queue.size()` from which `wait_for_finish` computes how long it sleeps (threadPool.cpp:74, a data race).  The
throttling loop in `wait_job` (threadPool.cpp:49-53) is dead code: the constructor replaces the -1 it tests for.
-/

namespace Verif.ThreadPool

/-- A worker: at the top of its loop or woken up, so that it competes for the mutex; blocked in `cond_.wait`; executing a job, with the mutex; returned. -/
inductive Worker where
  | ready
  | asleep
  | run (job : Nat)
  | gone
deriving DecidableEq, Repr

/-- The calls of the client. -/
inductive Call where
  | add (job : Nat)
  | wait
  | shutdown
deriving DecidableEq, Repr

/-- Where the client is: before the next call, or inside one, after it has released the mutex. -/
inductive Client where
  | go (calls : List Call)
  | notifyOne (calls : List Call)
  | notifyAll (calls : List Call)
  | join (calls : List Call)
deriving DecidableEq, Repr

/-- The members of `ThreadPool` (include/threadPool.h:31-36), the client, and what has happened: the jobs added and the jobs finished, in this order. -/
structure Pool where
  queue : List Nat
  stopped : Bool
  running : Int
  workers : List Worker
  client : Client
  added : List Nat
  finished : List Nat
deriving DecidableEq, Repr

/-- The constructor (threadPool.cpp:5-13) with a number of threads, and a client that is going to make these calls. -/
def init (n : Nat) (calls : List Call) : Pool :=
  { queue := [], stopped := false, running := 0, workers := List.replicate n .ready, client := .go calls, added := [], finished := [] }

def Worker.runs : Worker → Bool
  | .run _ => true
  | _ => false

/-- The mutex is held between two moves only by a worker that executes a job. -/
def Pool.locked (s : Pool) : Bool := s.workers.any Worker.runs

/-- A step of the schedule: a worker runs, a worker wakes up without a notification, the client runs (`who` is the worker that a notification wakes up, if any). -/
inductive Move where
  | worker (i : Nat)
  | spurious (i : Nat)
  | client (who : Nat)
deriving DecidableEq, Repr

/-- `wait_job` (threadPool.cpp:34-58).  `returns` tells whether a job comes to an end: one that adds a job to the same pool does not, since it waits for the mutex
its own thread holds. -/
def work (returns : Nat → Bool) (s : Pool) (i : Nat) : Option Pool :=
  match s.workers[i]? with
  | some .ready =>
    if s.locked then none
    else if s.stopped then some { s with workers := s.workers.set i .gone }
    else match s.queue with
      | [] => some { s with workers := s.workers.set i .asleep }
      | j :: q => some { s with queue := q, running := s.running + 1, workers := s.workers.set i (.run j) }
  | some (.run j) =>
    if returns j then some { s with running := s.running - 1, workers := s.workers.set i .ready, finished := s.finished ++ [j] } else none
  | _ => none

/-- `cond_.notify_one()`: if a worker sleeps, one is woken up. -/
def notify (ws : List Worker) (who : Nat) : Option (List Worker) :=
  if Worker.asleep ∈ ws then (if ws[who]? = some .asleep then some (ws.set who .ready) else none) else some ws

/-- `cond_.notify_all()`. -/
def wake : Worker → Worker
  | .asleep => .ready
  | w => w

/-- The client: `add_Job` (threadPool.cpp:60-65), `wait_for_finish` (threadPool.cpp:67-76; a failed test is a move that changes nothing) and `shutdown`
(threadPool.cpp:15-32). -/
def act (s : Pool) (who : Nat) : Option Pool :=
  match s.client with
  | .go [] => none
  | .go (.add j :: p) => if s.locked then none else some { s with queue := s.queue ++ [j], client := .notifyOne p, added := s.added ++ [j] }
  | .go (.wait :: p) =>
    if s.locked then none
    else if s.queue = [] ∧ s.running = 0 then some { s with client := .go p } else some s
  | .go (.shutdown :: p) =>
    if s.locked then none
    else if s.stopped then some { s with client := .go p } else some { s with stopped := true, client := .notifyAll p }
  | .notifyOne p => match notify s.workers who with
    | none => none
    | some ws => some { s with workers := ws, client := .go p }
  | .notifyAll p => some { s with workers := s.workers.map wake, client := .join p }
  | .join p => if s.workers.all (· = .gone) then some { s with workers := [], client := .go p } else none

def step (returns : Nat → Bool) (s : Pool) : Move → Option Pool
  | .worker i => work returns s i
  | .spurious i => if s.workers[i]? = some .asleep then some { s with workers := s.workers.set i .ready } else none
  | .client who => act s who

/-- A schedule; `none` if a move is not possible. -/
def exec (returns : Nat → Bool) : Pool → List Move → Option Pool
  | s, [] => some s
  | s, m :: ms => match step returns s m with
    | none => none
    | some s' => exec returns s' ms

end Verif.ThreadPool
