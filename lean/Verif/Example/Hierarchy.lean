import Verif.Base.CacheBase
import Verif.Base.Contract
import Verif.Spec.Hierarchy
/-!
# The cache hierarchy example

`example/cacheHierarchy`: each L1 cache writes its misses to a text file, one line `time,id,size` per miss; the files are merged by time into the binary trace of the L2 cache.
-/

namespace Verif.Hierarchy
open Verif Verif.Spec

/-- A request with its time. -/
structure Timed where
  ts : Nat
  req : Req

/-- Simulator::gen_miss_trace (simulator.cpp:14-48): the lines written to the miss file. The printed miss ratio is not modelled. -/
def missTrace {σ : Type} (A : Algo σ) (s : σ) : List Timed → Res (List Rec)
  | [] => .ok []
  | t :: ts => do
    let (hit, s') ← A.get s t.req
    let rest ← missTrace A s' ts
    .ok (if hit then rest else ⟨t.ts, t.req.id, t.req.size⟩ :: rest)

/-- What `fscanf` with `"%u,%u,%u"` makes of a line (utils.cpp:50, 70-71): each number as a 32-bit number. (C leaves larger numbers undefined; this is what glibc does with numbers of up to 64 bits.) -/
def scanned (r : Rec) : Rec := ⟨r.ts % 2 ^ 32, r.id % 2 ^ 32, r.sz % 2 ^ 32⟩

/-- req_t (utils.hpp:20-25): a record and the file it came from. -/
structure Entry where
  line : Rec
  src : Nat
deriving DecidableEq, Repr

/-- std::priority_queue with the comparer of utils.cpp:42: `pop` takes out some entry with the smallest time; which one, if there are several, is left open. -/
structure MinQueue where
  pop : List Entry → Entry × List Entry
  perm : ∀ l, l ≠ [] → ((pop l).1 :: (pop l).2).Perm l
  least : ∀ l, l ≠ [] → ∀ e ∈ l, (pop l).1.line.ts ≤ e.line.ts

/-- What `req` holds after reading the first line of a file (utils.cpp:50): nothing changes if there is none. -/
def readFirst (req : Rec) : List Rec → Rec
  | [] => req
  | r :: _ => scanned r

/-- The first loop of merge_l1_trace (utils.cpp:49-55). `req` keeps its last values if there is nothing to read. Returns the entries pushed; `i` is the number of the first of the remaining files. -/
def firstEntries (req : Rec) : Nat → List (List Rec) → List Entry
  | _, [] => []
  | i, f :: fs => ⟨readFirst req f, i⟩ :: firstEntries (readFirst req f) (i + 1) fs

/-- The main loop (utils.cpp:61-78). `files i` are the unread lines of file `i`. At the end of a file either `feof` holds or `fscanf` reads nothing, with the same effect. Returns the records written;
the model stops after as many rounds as given. -/
def mergeLoop (Q : MinQueue) (n : Nat) : Nat → (Nat → List Rec) → List Entry → Nat → Res (List Rec)
  | 0, _, q, finished => if finished < n ∧ q ≠ [] then .error .diverge else .ok []
  | fuel + 1, files, q, finished =>
    if finished < n ∧ q ≠ [] then
      let e := (Q.pop q).1
      let q' := (Q.pop q).2
      match files e.src with
      | [] => do
        let out ← mergeLoop Q n fuel files q' (finished + 1)
        .ok (e.line :: out)
      | r :: rest => do
        let out ← mergeLoop Q n fuel (fun i => if i = e.src then rest else files i) (⟨scanned r, e.src⟩ :: q') finished
        .ok (e.line :: out)
    else .ok []

/-- TraceUtils::merge_l1_trace (utils.cpp:32-85): the records of the L2 trace; their number is returned. All files exist. `garbage` is what the uninitialised `req` holds. Without files `top` of the
empty queue is undefined. -/
def mergeTraces (Q : MinQueue) (garbage : Rec) (files : List (List Rec)) : Res (Nat × List Rec) :=
  if files = [] then .error .outOfBounds
  else do
    let out ← mergeLoop Q files.length (files.flatten.length + files.length) (fun i => (files.getD i []).tail) (firstEntries garbage 0 files) 0
    .ok (out.length, out)

/-- The L1 stage of main.cpp:31-44: one cache per trace, each with its own size. The threads share nothing, so they are run one after the other. -/
def missTraces {σ : Type} (A : Algo σ) (mk : Nat → σ) : List (Nat × List Timed) → Res (List (List Rec))
  | [] => .ok []
  | (cs, t) :: l => do
    let f ← missTrace A (mk cs) t
    let fs ← missTraces A mk l
    .ok (f :: fs)

/-- main.cpp:31-50: the L2 trace made from the L1 traces. -/
def l2Trace {σ : Type} (A : Algo σ) (mk : Nat → σ) (Q : MinQueue) (garbage : Rec) (l1 : List (Nat × List Timed)) : Res (Nat × List Rec) := do
  let files ← missTraces A mk l1
  mergeTraces Q garbage files

end Verif.Hierarchy
