import Verif.Cli.Args
import Verif.Profiler.Simulator
import Verif.Tools.TraceConv
/-!
# Running one cache: libCacheSim/bin/cachesim/sim.c, the working set size (libCacheSim/bin/cli_reader_utils.c) and the trace filter
(libCacheSim/bin/traceUtils/traceFilterMain.cpp)

A reader is the list of the requests it delivers.  Counters do not wrap.  Names, progress output and the throughput are left out.
-/

namespace Verif.Cli
open Verif Verif.Simulator

/-! ## The working set -/

/-- `scaling_factor`, cli_reader_utils.c:255-260 -/
def scaling (fileSize : Nat) : Nat := if fileSize > 5 * GiB then 101 else if fileSize > 1 * GiB then 11 else 1

/-- the loop, cli_reader_utils.c:263-276: the ids in the table, the number of objects and of bytes -/
def wssLoop (f : Nat) : List Item → List ObjId → Nat → Nat → Nat × Nat
  | [], _, o, b => (o, b)
  | it :: l, seen, o, b =>
    if f > 1 ∧ it.req.id % f ≠ 0 then wssLoop f l seen o b
    else if it.req.id ∈ seen then wssLoop f l seen o b
    else wssLoop f l (it.req.id :: seen) (o + 1) (b + it.req.size)

/-- `cal_working_set_size`, cli_reader_utils.c:245-284 -/
def workingSet (fileSize : Nat) (l : List Item) : Nat × Nat :=
  let p := wssLoop (scaling fileSize) l [] 0 0
  (p.1 * scaling fileSize, p.2 * scaling fileSize)

/-- the loop of `should_disable_obj_metadata`, cli_reader_utils.c:230-237 -/
def testLoop : Nat → List Item → Bool
  | 0, _ => true
  | _ + 1, [] => true
  | k + 1, it :: l => if it.req.size > 1 then false else testLoop k l

/-- `should_disable_obj_metadata`, cli_reader_utils.c:227-242 -/
def shouldDisable (l : List Item) : Bool := testLoop 1024 l

/-! ## `simulate` -/

/-- the numbers of a progress report, sim.c:59-66 -/
structure Report where
  clock : Int
  req : Nat
  miss : Nat
  dReq : Nat
  dMiss : Nat
deriving DecidableEq, Repr

/-- the local variables of `simulate`, sim.c:26-32, and what it has printed -/
structure Tally where
  req : Nat := 0
  miss : Nat := 0
  reqByte : Nat := 0
  missByte : Nat := 0
  lastReq : Nat := 0
  lastMiss : Nat := 0
  lastTs : Int
  reports : List Report := []
deriving DecidableEq, Repr

variable {σ : Type}

/-- sim.c:51-56: the counters after a measured request -/
def Tally.count (k : Tally) (hit : Bool) (size : Nat) : Tally :=
  { k with req := k.req + 1, reqByte := k.reqByte + size, miss := if hit then k.miss else k.miss + 1, missByte := if hit then k.missByte else k.missByte + size }

/-- sim.c:57-70.  `req->clock_time - last_report_ts >= report_interval` compares unsigned 64-bit numbers. -/
def Tally.report (k : Tally) (interval t : Int) : Tally :=
  if (t - k.lastTs) % 18446744073709551616 ≥ interval % 18446744073709551616 ∧ t ≠ 0 then
    { k with lastReq := k.req, lastMiss := k.miss, lastTs := t, reports := k.reports ++ [⟨t, k.req, k.miss, k.req - k.lastReq, k.miss - k.lastMiss⟩] }
  else k

/-- the loop, sim.c:35-73: random seed, cache and counters.  `t` is the time since the first request. -/
def simLoop (C : Cache σ) (interval warm start : Int) : List Item → Nat → σ → Tally → Res (Nat × σ × Tally)
  | [], seed, s, k => .ok (seed, s, k)
  | it :: l, seed, s, k =>
    C.get seed s it.req >>= fun r =>
    if it.time - start ≤ warm then simLoop C interval warm start l r.2.1 r.2.2 k
    else simLoop C interval warm start l r.2.1 r.2.2 ((k.count r.1 it.req.size).report interval (it.time - start))

/-- the time of the first request, sim.c:30-31 (`new_request` has time 0) -/
def firstTime (tr : List Item) : Int := match tr with | [] => 0 | it :: _ => it.time

/-- `simulate`, sim.c:19-115, up to the output: `seed` is what `rand` gave -/
def simulate (C : Cache σ) (interval warm : Int) (seed : Nat) (s : σ) (tr : List Item) : Res (Nat × σ × Tally) :=
  simLoop C interval warm (firstTime tr) tr seed s { lastTs := warm }

/-! ## The trace filter -/

/-- `output_format`, traceFilterMain.cpp:24-29 and 36, 46-48: the record of a request `t` seconds after the first -/
def filterRec (t : Int) (q : Req) : TraceConv.Rec :=
  ⟨(t % 4294967296).toNat, q.id % 18446744073709551616, q.size % 4294967296, -2⟩

/-- the loop of `TraceFilter::filter`, traceFilterMain.cpp:42-54: the records written -/
def filterLoop (C : Cache σ) (start : Int) : List Item → Nat → σ → List TraceConv.Rec → Res (List TraceConv.Rec)
  | [], _, _, out => .ok out
  | it :: l, seed, s, out =>
    C.get seed s it.req >>= fun r =>
    filterLoop C start l r.2.1 r.2.2 (if r.1 = false then out ++ [filterRec (it.time - start) it.req] else out)

/-- `TraceFilter::filter`, traceFilterMain.cpp:31-60: the bytes of the output file -/
def filter (C : Cache σ) (seed : Nat) (s : σ) (tr : List Item) : Res (List Nat) :=
  filterLoop C (firstTime tr) tr seed s [] >>= fun out => .ok (out.flatMap TraceConv.Rec.bytes)

end Verif.Cli
