import Verif.Base.Types

/-!
# The trace analyzer's pass over the trace

Models `TraceAnalyzer::run` (traceAnalyzer/analyzer.cpp): the loop that reads every request,
keeps one `obj_info` per object and annotates the request for the statistics modules
(Verif/Analyzer/Modules.lean), and the statistics computed by the analyzer itself
(`post_processing`, `gen_stat_str`).

Simplifications, throughout:
* the reader is the list of the records it delivers (its own behaviour is modelled under
  Verif/Reader);
* `robin_hood::unordered_flat_map` and `std::unordered_map` are association lists in insertion
  order.  The code iterates over them only where the order cannot be seen or where the result is
  sorted afterwards;
* files and streams written are the lists of the numbers printed, without the formatting.
-/

namespace Verif.Analyzer

/-- One request as the reader delivers it (include/libCacheSim/request.h lines 18-62: `clock_time`,
`obj_id`, `obj_size`, `ttl`, `op`).  `size` is a natural number: no reader delivers a negative
`obj_size`. -/
structure Rec where
  time : Int
  id : Nat
  size : Nat
  ttl : Int
  op : Nat
deriving DecidableEq, Repr

/-- 2³², the number of `uint32_t` values, and 2⁶⁴, the number of `uint64_t` values (C types). -/
def two32 : Nat := 4294967296
/-- see `two32` -/
def two64 : Nat := 18446744073709551616

/-- Conversion to `int32_t` (C type conversion; two's complement as every supported compiler
does). -/
def i32 (x : Int) : Int := (x + 2147483648) % 4294967296 - 2147483648

/-- Conversion to `uint32_t` (C type conversion). -/
def u32of (x : Int) : Nat := (x % 4294967296).toNat

/-- `OP_CAS`, `OP_REPLACE`, `OP_SET`, `OP_DELETE` and `OP_INVALID` (include/libCacheSim/enum.h
lines 109-127). -/
def opSet : Nat := 3
/-- see `opSet` -/
def opCas : Nat := 5
/-- see `opSet` -/
def opReplace : Nat := 6
/-- see `opSet` -/
def opDelete : Nat := 9
/-- see `opSet` -/
def opInvalid : Nat := 15

/-- `struct obj_info` (traceAnalyzer/struct.h lines 13-19). -/
structure Info where
  lastV : Int
  size : Nat
  lastR : Int
  freq : Nat
  createR : Int
deriving DecidableEq, Repr

/-- The request after `run` has annotated it (include/libCacheSim/request.h lines 53-61): `rel` is
the time since the start of the trace. -/
structure Note where
  rel : Int
  id : Nat
  size : Nat
  ttl : Int
  op : Nat
  vSince : Int
  rSince : Int
  prevSize : Int
  createR : Int
  compulsory : Bool
  overwrite : Bool
  first : Bool
deriving DecidableEq, Repr

/-- The analyzer's own state (traceAnalyzer/analyzer.h lines 141-171) and the local variables of
`run`: `time_window_`, `start_ts_`, `curr_time_window_idx`, `next_time_window_ts`, `n_req_`,
`sum_obj_size_req`, `sum_obj_size_obj`, `obj_map_`. -/
structure State where
  w : Nat
  start : Int
  widx : Nat
  next : Nat
  nReq : Nat
  sumReq : Nat
  sumObj : Nat
  map : List (Nat × Info)
deriving DecidableEq, Repr

/-- Replacing the value of a key that is present (`it->second… = …`, analyzer.cpp lines 166-170). -/
def setInfo (m : List (Nat × Info)) (id : Nat) (i : Info) : List (Nat × Info) :=
  m.map (fun p => if p.1 = id then (p.1, i) else p)

/-- `while (req->clock_time >= next_time_window_ts)` (analyzer.cpp lines 105-108).
`next_time_window_ts` is an `int`, so stepping it past `INT_MAX` overflows.  The first argument
bounds the number of rounds; `t + 1` rounds are always enough when the window is not empty. -/
def advance (w : Nat) (t : Int) : Nat → Nat → Nat → Res (Nat × Nat)
  | 0, _, _ => .error .diverge
  | fuel + 1, next, idx =>
    if (next : Int) ≤ t then
      if next + w > 2147483647 then .error .overflow
      else advance w t fuel (next + w) (idx + 1)
    else .ok (next, idx)

/-- `time_to_window_idx` (analyzer.h line 203): the argument is converted to `uint32_t`. -/
def windowIdx (w : Nat) (t : Int) : Nat := u32of t / w

/-- One round of the `do … while` loop, up to the calls of the modules (analyzer.cpp lines 99-171).
`ERROR` logs and aborts. -/
def annotate (s : State) (r : Rec) : Res (Note × State) :=
  let t := r.time - s.start
  advance s.w t (t.toNat + 1) s.next s.widx >>= fun a =>
  if a.2 ≠ windowIdx s.w t then .error .abort else
  let n := s.nReq + 1
  let sumReq := (s.sumReq + r.size) % two64
  match s.map.lookup r.id with
  | none =>
    .ok ({ rel := t, id := r.id, size := r.size, ttl := r.ttl, op := r.op, vSince := -1, rSince := -1, prevSize := -1, createR := i32 t, compulsory := true, overwrite := false, first := true },
      { s with next := a.1, widx := a.2, nReq := n, sumReq := sumReq, sumObj := (s.sumObj + r.size) % two64, map := s.map ++ [(r.id, { lastV := n, size := r.size % two32, lastR := i32 t, freq := 1, createR := i32 t })] })
  | some i =>
    if (n : Int) - i.lastV ≤ 0 then .error .assertFail
    else if t - i.lastR < 0 then .error .assertFail
    else
    .ok ({ rel := t, id := r.id, size := r.size, ttl := r.ttl, op := r.op, vSince := n - i.lastV, rSince := t - i.lastR, prevSize := i.size, createR := i.createR, compulsory := false, overwrite := decide (r.op = opSet ∨ r.op = opReplace ∨ r.op = opCas), first := decide (windowIdx s.w i.lastR ≠ a.2) },
      { s with next := a.1, widx := a.2, nReq := n, sumReq := sumReq, map := setInfo s.map r.id { lastV := n, size := r.size % two32, lastR := i32 t, freq := (i.freq + 1) % two32, createR := i.createR } })

/-- The loop over the requests (analyzer.cpp lines 99-219). -/
def annotateAll : State → List Rec → Res (List Note × State)
  | s, [] => .ok ([], s)
  | s, r :: l =>
    annotate s r >>= fun a =>
    annotateAll a.2 l >>= fun b => .ok (a.1 :: b.1, b.2)

/-- The request `new_request` allocates, with its defaults (include/libCacheSim/request.h lines
68-81).  `read_one_req` leaves it as it is when the trace is empty. -/
def blank : Rec := { time := 0, id := 0, size := 1, ttl := 0, op := opInvalid }

/-- The requests the loop goes through: it is a `do … while`, so its body runs once before
`req->valid` is looked at (analyzer.cpp lines 91-99 and 218-219). -/
def feed (l : List Rec) : List Rec := if l = [] then [blank] else l

/-- The state before the loop (analyzer.h lines 141-165, analyzer.cpp lines 91-98). -/
def State.init (w : Nat) (start : Int) : State :=
  { w := w, start := start, widx := 0, next := w, nReq := 0, sumReq := 0, sumObj := 0, map := [] }

/-- What the pass over the trace leaves for the report: the annotated requests, the final state and
`end_ts_`. -/
structure Pass where
  notes : List Note
  st : State
  endTs : Int
deriving DecidableEq, Repr

/-- The constructor and the pass of `run` (analyzer.h lines 104-124: `warmup_time_ % time_window_`
divides by zero for an empty window, and `exit(1)` is called if the warm-up time is not a multiple of
the window; analyzer.cpp lines 88-220).  After the last request `read_one_req` leaves
`req->clock_time`, which is relative by then, unchanged (line 220).  Negative windows and warm-up
times are not modelled. -/
def pass (w warmup : Nat) (l : List Rec) : Res Pass :=
  if w = 0 then .error .divZero
  else if warmup % w ≠ 0 then .error .abort
  else
  let fd := feed l
  let start := (fd.headD blank).time
  annotateAll (State.init w start) fd >>= fun p =>
  .ok { notes := p.1, st := p.2, endTs := ((fd.getLastD blank).time - start) + start }

/-- The counts `gen_stat_str` prints first (analyzer.cpp lines 286-310): number of requests, of
objects, the bytes of both, and the time span. -/
structure Headline where
  nReq : Nat
  nObj : Nat
  reqBytes : Nat
  objBytes : Nat
  span : Int
deriving DecidableEq, Repr

/-- `gen_stat_str`, the numbers of its first lines (analyzer.cpp lines 286-310).  The ratios it
derives from them in floating point are not modelled. -/
def headline (p : Pass) : Headline :=
  { nReq := p.st.nReq, nObj := p.st.map.length, reqBytes := p.st.sumReq, objBytes := p.st.sumObj, span := p.endTs - p.st.start }

/-- `n_hit_cnt_[freq - 1] += 1` for one object (analyzer.cpp lines 349-353): `freq` is a `uint32_t`,
so a frequency that wrapped to 0 indexes entry -1. -/
def hitAdd (trackHit : Nat) (cnt : List Nat) (freq : Nat) : Res (List Nat) :=
  if freq ≤ trackHit then
    if freq = 0 then .error .outOfBounds
    else .ok (cnt.modify (freq - 1) (· + 1))
  else .ok cnt

/-- The loop of `post_processing` over `obj_map_` (analyzer.cpp lines 344-353). -/
def hitCounts (trackHit : Nat) (m : List (Nat × Info)) : Res (List Nat) :=
  m.foldl (fun c p => c >>= fun cnt => hitAdd trackHit cnt p.2.freq) (.ok (List.replicate trackHit 0))

/-- Puts an element in its place in a sorted list (a step of `sortBy`). -/
def insertBy {α : Type} (le : α → α → Bool) (x : α) : List α → List α
  | [] => [x]
  | y :: l => if le x y then x :: y :: l else y :: insertBy le x l

/-- `std::sort` (C++ library), here an insertion sort. -/
def sortBy {α : Type} (le : α → α → Bool) (l : List α) : List α := l.foldr (insertBy le) []

/-- `Popularity::run` up to the sort (traceAnalyzer/popularity.cpp lines 47-53): the frequencies of
all objects, largest first.  The Zipf fit that follows is in `Zipf.lean`. -/
def sortedFreq (m : List (Nat × Info)) : List Nat :=
  sortBy (fun a b => decide (b ≤ a)) (m.map (·.2.freq))

/-- `popular_cnt_[i] = sorted_freq[i]` for `i < track_n_popular_` (analyzer.cpp lines 355-361):
`operator[]` is not checked. -/
def popular (trackPop : Nat) (m : List (Nat × Info)) : Res (List Nat) :=
  if trackPop ≤ m.length then .ok ((sortedFreq m).take trackPop) else .error .outOfBounds

/-- The loop of `Popularity::dump` (popularity.cpp lines 32-43): runs of equal frequencies become one
`freq:count` line. -/
def runs : Nat → Nat → List Nat → List (Nat × Nat)
  | last, cnt, [] => [(last, cnt)]
  | last, cnt, x :: l =>
    if x = last then runs last (cnt + 1) l else (last, cnt) :: runs x 1 l

/-- `Popularity::dump` (popularity.cpp lines 18-45).  There is always an object: the loop of `run` goes
through at least one request. -/
def popularityDump (m : List (Nat × Info)) : List (Nat × Nat) :=
  match sortedFreq m with
  | [] => []
  | f :: l => runs f 0 (f :: l)

end Verif.Analyzer
