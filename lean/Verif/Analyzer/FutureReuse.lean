import Verif.Analyzer.Run

/-!
# The future-reuse table of the trace analyzer

Models traceAnalyzer/experimental/createFutureReuseCCDF.{h,cpp}: for each age (time since the first request to
the object) the number of requests at that age that the trace says are, and are not, followed by another one.
-/

namespace Verif.Analyzer

/-- The fields of `request_t` read by the module: the time since the start of the trace, the object, and
`next_access_vtime` (-2 if the trace does not have it, -1 or the largest 64-bit number if there is no next
request). -/
structure Look where
  time : Int
  id : Nat
  next : Int
deriving DecidableEq, Repr

/-- `INT64_MAX`. -/
def int64Max : Int := 9223372036854775807

namespace FutureReuse

/-- `create_info` (createFutureReuseCCDF.h lines 59-63). -/
structure Info where
  create : Int
  last : Int
  freq : Int
deriving DecidableEq, Repr

/-- `create_reuse_info_t` (createFutureReuseCCDF.h lines 71-78). -/
structure Cell where
  reuse : Nat
  stop : Nat
  reuseAge : Nat
  reuseFreq : Nat
  stopAge : Nat
  stopFreq : Nat
deriving DecidableEq, Repr

/-- A cell after `memset` (createFutureReuseCCDF.h lines 24-25). -/
def Cell.zero : Cell := ⟨0, 0, 0, 0, 0, 0⟩

/-- The object (createFutureReuseCCDF.h lines 65-99).  The hash set and the hash map are lists, the array is a
function of the position. -/
structure State where
  warm : List Nat
  info : List (Nat × Info)
  cells : Nat → Cell

/-- The constructor (createFutureReuseCCDF.h lines 19-26). -/
def State.init : State := { warm := [], info := [], cells := fun _ => Cell.zero }

/-- `creation_time_window_` (createFutureReuseCCDF.h line 87). -/
def createWindow : Int := 86400
/-- `fine_rtime_upbound_` (createFutureReuseCCDF.h line 91). -/
def fine : Int := 3600
/-- `rtime_granularity_` (createFutureReuseCCDF.h line 92). -/
def gran : Int := 5
/-- `max_reuse_rtime_` (createFutureReuseCCDF.h line 94). -/
def maxTime : Int := 86400 * 80
/-- `reuse_info_array_size_` (createFutureReuseCCDF.h lines 95-96). -/
def arraySize : Int := maxTime / gran + fine

/-- `GET_POS_RT` (createFutureReuseCCDF.h lines 30-35); only called on times that are not negative. -/
def posOf (t : Int) : Int := if t > fine then t / gran + fine else t

/-- `GET_RTIME_FROM_POS` (createFutureReuseCCDF.h lines 37-48). -/
def timeOf (p : Int) : Int :=
  if p > fine then (if p < fine + fine / gran then -1 else (p - fine) * gran) else p

/-- `x += y` on a `uint64_t` with a signed `y`. -/
def add64 (x : Nat) (y : Int) : Nat := (((x : Int) + y) % (two64 : Int)).toNat

/-- `map[id] = i` (createFutureReuseCCDF.cpp lines 34, 42). -/
def put (m : List (Nat × Info)) (id : Nat) (i : Info) : List (Nat × Info) := (id, i) :: m.filter (fun e => e.1 ≠ id)

/-- createFutureReuseCCDF.cpp lines 28-44: the entry of the object after the request; `none` is the early return.
The map assigns to the entry `it` points to, so what is read through `it` afterwards is the new entry. -/
def entry (warmup : Int) (s : State) (r : Look) : Option Info :=
  match s.info.lookup r.id with
  | none => if r.time > warmup + createWindow then none else some ⟨i32 r.time, -1, 0⟩
  | some i => some ⟨i.create, i32 r.time, i.freq + 1⟩

/-- createFutureReuseCCDF.cpp lines 52-73: the update of the cell of the request. -/
def count (r : Look) (i : Info) (c : Cell) : Cell :=
  let age : Int := if i.last = -1 then 0 else i32 r.time - i.last
  if 0 ≤ r.next ∧ r.next ≠ int64Max then
    { c with reuse := (c.reuse + 1) % two32, reuseFreq := add64 c.reuseFreq i.freq, reuseAge := add64 c.reuseAge age }
  else
    { c with stop := (c.stop + 1) % two32, stopFreq := add64 c.stopFreq i.freq, stopAge := add64 c.stopAge age }

/-- `CreateFutureReuseDistribution::add_req` (createFutureReuseCCDF.cpp lines 19-74). -/
def State.add (warmup : Int) (s : State) (r : Look) : Res State :=
  if r.time < warmup then .ok { s with warm := r.id :: s.warm }
  else if r.id ∈ s.warm then .ok s
  else if r.next = -2 then .error .assertFail
  else match entry warmup s r with
    | none => .ok s
    | some i =>
      let since := i32 r.time - i.create
      if since < 0 then .error .assertFail
      else if ¬ posOf since < arraySize then .error .assertFail
      else .ok { s with info := put s.info r.id i
                        cells := fun p => if p = (posOf since).toNat then count r i (s.cells p) else s.cells p }

/-- All requests. -/
def run (warmup : Int) (l : List Look) : Res State :=
  l.foldl (fun s r => s >>= fun s => s.add warmup r) (.ok State.init)

/-- `CreateFutureReuseDistribution::dump` (createFutureReuseCCDF.cpp lines 76-101): the printed lines, each an age and
the six numbers.  The sum of the two 32-bit counts is taken modulo 2^32. -/
def State.dump (s : State) : List (Int × Cell) :=
  (List.range arraySize.toNat).filterMap (fun (p : Nat) =>
    if timeOf p = -1 then none
    else if ((s.cells p).reuse + (s.cells p).stop) % two32 = 0 then none
    else some (timeOf p, s.cells p))

end FutureReuse
end Verif.Analyzer
