import Verif.Analyzer.Run

/-!
# The statistics modules of the trace analyzer

Models the `add_req` and `dump` functions of the modules under traceAnalyzer/.  In the C++ code the
loop of `TraceAnalyzer::run` hands each annotated request to every module (analyzer.cpp lines
173-219); the modules share no state, so here each of them is folded over the annotated requests.
-/

namespace Verif.Analyzer

/-! ## Counters keyed by a value -/

/-- `map[key] += 1` on a `std::unordered_map<…, uint32_t>`: a missing entry starts at 0. -/
def bumpKey {κ : Type} [DecidableEq κ] (k : κ) : List (κ × Nat) → List (κ × Nat)
  | [] => [(k, 1)]
  | (a, n) :: m => if a = k then (a, (n + 1) % two32) :: m else (a, n) :: bumpKey k m

/-! ## OpStat -/

/-- `OpStat` (traceAnalyzer/op.h lines 55-58). -/
structure OpStat where
  cnt : List Nat
  over : Nat
deriving DecidableEq, Repr

/-- op.h lines 56-57. -/
def OpStat.init : OpStat := { cnt := List.replicate 16 0, over := 0 }

/-- `OpStat::add_req` (op.h lines 24-27): the array has `OP_INVALID + 1` entries and the index is not
checked. -/
def OpStat.add (s : OpStat) (n : Note) : Res OpStat :=
  if n.op ≤ opInvalid then
    .ok { cnt := s.cnt.modify n.op (fun c => (c + 1) % two64), over := if n.overwrite then (s.over + 1) % two64 else s.over }
  else .error .outOfBounds

/-- All requests through `OpStat`. -/
def OpStat.run (ns : List Note) : Res OpStat :=
  ns.foldl (fun s n => s >>= fun s => s.add n) (.ok OpStat.init)

/-- `operator<<` of `OpStat` (op.h lines 29-53): the numbers of writes, overwrites and deletes. -/
def OpStat.report (s : OpStat) : Nat × Nat × Nat :=
  ((s.cnt.getD opSet 0 + s.cnt.getD opReplace 0 + s.cnt.getD opCas 0) % two64, s.over, s.cnt.getD opDelete 0)

/-! ## TtlStat -/

/-- `TtlStat` (traceAnalyzer/ttl.h lines 51-54). -/
structure TtlStat where
  cnt : List (Int × Nat)
  tooMany : Bool
deriving DecidableEq, Repr

/-- `TtlStat::add_req` (traceAnalyzer/ttl.cpp lines 16-31).  (The `printf` of every TTL in line 17 is
not modelled.) -/
def TtlStat.add (s : TtlStat) (n : Note) : TtlStat :=
  if n.ttl > 0 then
    match s.cnt.lookup n.ttl with
    | none => { cnt := bumpKey n.ttl s.cnt, tooMany := s.tooMany || decide (s.cnt.length + 1 > 1000000) }
    | some _ => { s with cnt := bumpKey n.ttl s.cnt }
  else s

/-- All requests through `TtlStat`. -/
def TtlStat.run (ns : List Note) : TtlStat := ns.foldl TtlStat.add { cnt := [], tooMany := false }

/-- `TtlStat::dump` (ttl.cpp lines 33-46): the `ttl:count` lines, or none if there are too many. -/
def TtlStat.dump (s : TtlStat) : List (Int × Nat) := if s.tooMany then [] else s.cnt

/-! ## Counters per time window

`ReqRate`, `SizeDistribution` and `ReuseDistribution` share this shape: a request is added to the
counters of the current window, and then windows are closed as long as the request is not before the
end of the window. -/

/-- A windowed counter: `next_window_ts_`, the counters of the current window and what has been
pushed or streamed out. -/
structure Win (α : Type) where
  next : Int
  cur : α
  out : List α
deriving DecidableEq, Repr

/-- `while (req->clock_time >= next_window_ts_)` (reqRate.cpp lines 27-38, size.cpp lines 50-55,
reuse.cpp lines 59-64): `zero` are the counters a new window starts with.  The first numeric argument
bounds the number of rounds. -/
def Win.flush {α : Type} (w : Nat) (zero : α) (t : Int) : Nat → Win α → Res (Win α)
  | 0, _ => .error .diverge
  | fuel + 1, s =>
    if s.next ≤ t then Win.flush w zero t fuel { next := s.next + w, cur := zero, out := s.out ++ [s.cur] }
    else .ok s

/-- One request: set the end of the first window if this is the first request, count, close windows
(reqRate.cpp lines 8-39, size.cpp lines 12-56, reuse.cpp lines 17-65). -/
def Win.add {α : Type} (w : Nat) (zero : α) (count : α → Note → α) (s : Win α) (n : Note) : Res (Win α) :=
  let s := if s.next = -1 then { s with next := n.rel + w } else s
  Win.flush w zero n.rel (n.rel.toNat + 1) { s with cur := count s.cur n }

/-! ## ReqRate -/

/-- `window_n_req_`, `window_n_byte_`, `window_n_obj_`, `window_compulsory_miss_obj_`
(traceAnalyzer/reqRate.h lines 56-63). -/
structure Rate where
  req : Nat
  byte : Nat
  obj : Nat
  cold : Nat
deriving DecidableEq, Repr

/-- reqRate.cpp lines 15-25. -/
def Rate.count (c : Rate) (n : Note) : Rate :=
  { req := (c.req + 1) % two32, byte := (c.byte + n.size) % two64, obj := if n.first then (c.obj + 1) % two32 else c.obj, cold := if n.compulsory then (c.cold + 1) % two32 else c.cold }

/-- reqRate.h lines 56-63. -/
def Rate.zero : Rate := { req := 0, byte := 0, obj := 0, cold := 0 }

/-- All requests through `ReqRate::add_req` (reqRate.cpp lines 8-39); `req_rate_`, `byte_rate_`,
`obj_rate_` and `first_seen_obj_rate_` are the four components of `out`. -/
def ReqRate.run (w : Nat) (ns : List Note) : Res (Win Rate) :=
  ns.foldl (fun s n => s >>= fun s => s.add w Rate.zero Rate.count n) (.ok { next := -1, cur := Rate.zero, out := [] })

/-- `ReqRate::dump` (reqRate.cpp lines 41-71): every counter is divided by the window, in integers. -/
def ReqRate.dump (w : Nat) (s : Win Rate) : List Rate :=
  s.out.map (fun c => { req := c.req / w, byte := c.byte / w, obj := c.obj / w, cold := c.cold / w })

/-! ## SizeDistribution -/

/-- `vec.resize(pos + extra, 0)` if `pos` is outside, then `vec[pos] += by` (size.cpp lines 32-38,
utils/include/utils.h lines 26-35). -/
def vecIncr (extra : Nat) (v : List Nat) (pos : Nat) : List Nat :=
  (if v.length ≤ pos then v ++ List.replicate (pos + extra - v.length) 0 else v).modify pos (fun c => (c + 1) % two32)

/-- The window counters of `SizeDistribution` (traceAnalyzer/size.h lines 54-55). -/
structure SizeWin where
  req : List Nat
  obj : List Nat
deriving DecidableEq, Repr

/-- size.cpp lines 31-48.  `bucket` is `(int)MAX(log(obj_size) / log(1.5), 0)`, kept abstract.  Both
vectors are resized together, when the position is outside the first one. -/
def SizeWin.count (bucket : Nat → Nat) (c : SizeWin) (n : Note) : SizeWin :=
  { req := vecIncr 8 c.req (bucket n.size), obj := if n.first then vecIncr 8 c.obj (bucket n.size) else if c.obj.length ≤ bucket n.size then c.obj ++ List.replicate (bucket n.size + 8 - c.obj.length) 0 else c.obj }

/-- `SizeDistribution` (size.h lines 43-55). -/
structure SizeStat where
  reqCnt : List (Nat × Nat)
  objCnt : List (Nat × Nat)
  win : Win SizeWin
deriving DecidableEq, Repr

/-- `SizeDistribution::add_req` (size.cpp lines 12-56); the keys are `uint32_t`. -/
def SizeStat.add (bucket : Nat → Nat) (w : Nat) (s : SizeStat) (n : Note) : Res SizeStat :=
  s.win.add w { req := List.replicate 20 0, obj := List.replicate 20 0 } (SizeWin.count bucket) n >>= fun win =>
  .ok { reqCnt := bumpKey (n.size % two32) s.reqCnt, objCnt := if n.compulsory then bumpKey (n.size % two32) s.objCnt else s.objCnt, win := win }

/-- All requests through `SizeDistribution`. -/
def SizeStat.run (bucket : Nat → Nat) (w : Nat) (ns : List Note) : Res SizeStat :=
  ns.foldl (fun s n => s >>= fun s => s.add bucket w n) (.ok { reqCnt := [], objCnt := [], win := { next := -1, cur := { req := [], obj := [] }, out := [] } })

/-! ## ReuseDistribution -/

/-- The window counters of `ReuseDistribution` (traceAnalyzer/reuse.h lines 53-54). -/
structure ReuseWin where
  rt : List Nat
  vt : List Nat
deriving DecidableEq, Repr

/-- `ReuseDistribution` (reuse.h lines 36-54). -/
structure ReuseStat where
  rt : List (Int × Nat)
  vt : List (Int × Nat)
  win : Win ReuseWin
deriving DecidableEq, Repr

/-- `ReuseDistribution::add_req` (traceAnalyzer/reuse.cpp lines 17-65).  `gran` is
`rtime_granularity_`; `bucket` is `(int)(log(v) / log(1.5))`, kept abstract.  `int` conversions of the
positions are exact for the times the theorems consider. -/
def ReuseStat.add (gran : Nat) (bucket : Nat → Nat) (w : Nat) (s : ReuseStat) (n : Note) : Res ReuseStat :=
  let win := if s.win.next = -1 then { s.win with next := n.rel + w } else s.win
  if n.rSince < 0 then
    .ok { rt := bumpKey (-1) s.rt, vt := bumpKey (-1) s.vt, win := win }
  else if gran = 0 then .error .divZero
  else
    let pr := n.rSince.toNat / gran
    let pv := bucket n.vSince.toNat
    win.add w { rt := [], vt := [] } (fun c _ => { rt := vecIncr 2 c.rt pr, vt := vecIncr 2 c.vt pv }) n >>= fun win =>
    .ok { rt := bumpKey (pr : Int) s.rt, vt := bumpKey (pv : Int) s.vt, win := win }

/-- All requests through `ReuseDistribution`. -/
def ReuseStat.run (gran : Nat) (bucket : Nat → Nat) (w : Nat) (ns : List Note) : Res ReuseStat :=
  ns.foldl (fun s n => s >>= fun s => s.add gran bucket w n) (.ok { rt := [], vt := [], win := { next := -1, cur := { rt := [], vt := [] }, out := [] } })

/-! ## AccessPattern -/

/-- `AccessPattern` (traceAnalyzer/accessPattern.h lines 52-58). -/
structure Access where
  seen : Nat
  start : Int
  rt : List (Nat × List Nat)
  vt : List (Nat × List Nat)
deriving DecidableEq, Repr

/-- `if (find == end) map[id] = {}; map[id].push_back(x)` (accessPattern.cpp lines 46-51). -/
def pushKey (k x : Nat) : List (Nat × List Nat) → List (Nat × List Nat)
  | [] => [(k, [x])]
  | (a, v) :: m => if a = k then (a, v ++ [x]) :: m else (a, v) :: pushKey k x m

/-- `AccessPattern::add_req` (traceAnalyzer/accessPattern.cpp lines 28-52).  `ratio` is positive: the
constructor raises smaller values to 1 after logging an `ERROR`, which aborts (accessPattern.h lines
32-42). -/
def Access.add (ratio : Nat) (s : Access) (n : Note) : Access :=
  if s.seen > 0xfffffff0 then s
  else
  let seen := s.seen + 1
  let start := if s.start = -1 then n.rel else s.start
  if n.id % ratio ≠ 0 then { s with seen := seen, start := start }
  else { seen := seen, start := start, rt := pushKey n.id (u32of (n.rel - start)) s.rt, vt := pushKey n.id (u32of seen) s.vt }

/-- All requests through `AccessPattern`. -/
def Access.run (ratio : Nat) (ns : List Note) : Access :=
  ns.foldl (Access.add ratio) { seen := 0, start := -1, rt := [], vt := [] }

/-- `AccessPattern::dump` (accessPattern.cpp lines 54-103): the lines of the two files, sorted by
their first entry.  `std::sort` may order lines with equal first entries in any way; the model keeps
them in the order of the map. -/
def Access.dump (s : Access) : List (List Nat) × List (List Nat) :=
  (sortBy (fun a b => decide (a.headD 0 ≤ b.headD 0)) (s.rt.map (·.2)), sortBy (fun a b => decide (a.headD 0 ≤ b.headD 0)) (s.vt.map (·.2)))

/-! ## PopularityDecay -/

/-- `PopularityDecay` (traceAnalyzer/popularityDecay.h lines 76-87), with the rows streamed to the
file.  `n_req_per_window` is compiled out of the output (`USE_REQ_METRIC`), but its size is asserted;
it always has the size of `n_obj_per_window`.  The counters are `int32_t`; here they are unbounded. -/
structure Decay where
  next : Int
  obj : List Nat
  out : List (List Nat)
deriving DecidableEq, Repr

/-- popularityDecay.h lines 52-59. -/
def Decay.init : Decay := { next := -1, obj := [0], out := [] }

/-- The loop of the warm-up phase (popularityDecay.cpp lines 38-40). -/
def Decay.skip (w : Nat) (t : Int) : Nat → Int → Res Int
  | 0, _ => .error .diverge
  | fuel + 1, next => if next ≤ t then Decay.skip w t fuel (next + w) else .ok next

/-- The loop that closes windows (popularityDecay.cpp lines 50-62). -/
def Decay.flush (w warmup : Nat) (t : Int) : Nat → Decay → Res Decay
  | 0, _ => .error .diverge
  | fuel + 1, s =>
    if s.next ≤ t then
      if s.next < warmup then Decay.flush w warmup t fuel { s with next := warmup }
      else Decay.flush w warmup t fuel { next := s.next + w, obj := List.replicate (s.obj.length + 1) 0, out := s.out ++ [s.obj] }
    else .ok s

/-- `PopularityDecay::add_req` (popularityDecay.cpp lines 31-70); `idx_shift` is `warmup / w`. -/
def Decay.add (w warmup : Nat) (s : Decay) (n : Note) : Res Decay :=
  let s := if s.next = -1 then { s with next := n.rel + w } else s
  if n.rel < warmup then Decay.skip w n.rel (n.rel.toNat + 1) s.next >>= fun next => .ok { s with next := next }
  else if windowIdx w n.createR < warmup / w then .ok s
  else
  Decay.flush w warmup n.rel (n.rel.toNat + 2) s >>= fun s =>
  if windowIdx w n.createR - warmup / w < s.obj.length then
    .ok (if n.first then { s with obj := s.obj.modify (windowIdx w n.createR - warmup / w) (· + 1) } else s)
  else .error .assertFail

/-- All requests through `PopularityDecay`. -/
def Decay.run (w warmup : Nat) (ns : List Note) : Res Decay :=
  ns.foldl (fun s n => s >>= fun s => s.add w warmup n) (.ok Decay.init)

/-! ## LifetimeDistribution -/

/-- `LifetimeDistribution` (traceAnalyzer/experimental/lifetime.h lines 24-30): first and last time of
each object, in seconds and in requests. -/
structure Life where
  nReq : Nat
  clock : List (Nat × (Int × Int))
  logical : List (Nat × (Int × Int))
deriving DecidableEq, Repr

/-- `itr->second.second = x` (lifetime.cpp lines 34-36). -/
def setLast (id : Nat) (x : Int) (m : List (Nat × (Int × Int))) : List (Nat × (Int × Int)) :=
  m.map (fun p => if p.1 = id then (p.1, (p.2.1, x)) else p)

/-- `LifetimeDistribution::add_req` (traceAnalyzer/experimental/lifetime.cpp lines 22-38). -/
def Life.add (s : Life) (n : Note) : Life :=
  let c := s.nReq + 1
  match s.clock.lookup n.id with
  | none =>
    if n.rel < 86400 then { nReq := c, clock := s.clock ++ [(n.id, (n.rel, n.rel))], logical := s.logical ++ [(n.id, ((c : Int), (c : Int)))] }
    else { s with nReq := c }
  | some _ => { nReq := c, clock := setLast n.id n.rel s.clock, logical := setLast n.id c s.logical }

/-- All requests through `LifetimeDistribution`. -/
def Life.run (ns : List Note) : Life := ns.foldl Life.add { nReq := 0, clock := [], logical := [] }

/-- The counting loops of `LifetimeDistribution::dump` (lifetime.cpp lines 41-50 and 68-78), for
lifetimes in units of `/ div * mul`. -/
def lifeCounts (div mul : Int) (m : List (Nat × (Int × Int))) : List (Int × Nat) :=
  m.foldl (fun c p => bumpKey (Int.tdiv (p.2.2 - p.2.1) div * mul) c) []

/-- `LifetimeDistribution::dump` (lifetime.cpp lines 40-99), before the sort by lifetime. -/
def Life.dump (s : Life) : List (Int × Nat) × List (Int × Nat) :=
  (lifeCounts 10 60 s.clock, lifeCounts 100 100 s.logical)

/-! ## ProbAtAge -/

/-- `ProbAtAge::add_req` (traceAnalyzer/experimental/probAtAge.cpp lines 20-30). -/
def ProbAtAge.add (w warmup : Nat) (s : List ((Int × Int) × Nat)) (n : Note) : List ((Int × Int) × Nat) :=
  if n.rel < warmup ∨ n.createR < warmup then s
  else bumpKey (Int.tdiv n.rSince w, Int.tdiv (n.rel - n.createR) w) s

/-- All requests through `ProbAtAge`. -/
def ProbAtAge.run (w warmup : Nat) (ns : List Note) : List ((Int × Int) × Nat) :=
  ns.foldl (ProbAtAge.add w warmup) []

/-! ## SizeChangeDistribution -/

/-- `change >> 1u` until 0, counting (traceAnalyzer/experimental/sizeChange.cpp lines 28-31 and
34-37); the argument is an `unsigned`. -/
def bitLen (n : Nat) : Nat := if n = 0 then 0 else bitLen (n / 2) + 1
termination_by n

/-- `absolute_change_to_array_pos` (sizeChange.cpp lines 21-46): 33 bins, the middle one for no
change. -/
def absPos (d : Int) : Nat :=
  if d = 0 then 16
  else
    let pos : Int := if d > 0 then 16 + bitLen d.toNat else 16 - bitLen (-d).toNat
    if pos ≥ 33 then 32 else if pos < 0 then 0 else pos.toNat

/-- The bounds of `relative_change_to_array_pos` in 1/10000 (sizeChange.h lines 34-59). -/
def relBounds : List Rat :=
  [1/10000, 2/10000, 5/10000, 8/10000, 1/1000, 2/1000, 5/1000, 8/1000, 1/100, 2/100, 5/100, 8/100, 1/10]

/-- `relative_change_to_array_pos` (sizeChange.h lines 28-92), with an exact quotient instead of a
`double`: 29 bins, the middle one for no change.  Both branches compare with the positive bounds. -/
def relPos (c : Rat) : Nat :=
  if c < 1/100000 ∧ c > -(1/100000) then 14
  else
    let k := relBounds.findIdx (fun b => decide (c < b))
    if c > 0 then 14 - (k + 1) else 14 + (k + 1)

/-- `SizeChangeDistribution` (sizeChange.h lines 136-155). -/
structure SizeChange where
  total : Nat
  abs : List Nat
  rel : List Nat
deriving DecidableEq, Repr

/-- `SizeChangeDistribution::add_req` (sizeChange.cpp lines 48-69).  A previous size of 0, which makes
the quotient infinite or NaN, is treated as the quotient 0; the conversions of the sizes to `int` are taken
to be exact. -/
def SizeChange.add (s : SizeChange) (n : Note) : SizeChange :=
  if n.overwrite then
    let d := (n.size : Int) - n.prevSize
    { total := s.total + 1, abs := s.abs.modify (absPos d) (fun c => (c + 1) % two64), rel := s.rel.modify (relPos (d / n.prevSize)) (fun c => (c + 1) % two64) }
  else { s with total := s.total + 1 }

/-- All requests through `SizeChangeDistribution`. -/
def SizeChange.run (ns : List Note) : SizeChange :=
  ns.foldl SizeChange.add { total := 0, abs := List.replicate 33 0, rel := List.replicate 29 0 }

/-- `absolute_size_change_labels` as numbers (sizeChange.h lines 155-160): the label of bin `i`. The
outermost two are "<-16384" and ">16384". -/
def absLabels : List Int :=
  [-16384, -16384, -8192, -4096, -2048, -1024, -512, -256, -128, -64, -32, -16, -8, -4, -2, -1, 0, 1, 2, 4, 8, 16, 32, 64, 128, 256, 512, 1024, 2048, 4096, 8192, 16384, 16384]

/-- `relative_size_change_labels` as numbers (sizeChange.h lines 144-149): the label of bin `i`.  The
outermost two are "<-0.1" and "<0.1". -/
def relLabels : List Rat :=
  [-(1/10), -(1/10), -(8/100), -(5/100), -(2/100), -(1/100), -(8/1000), -(5/1000), -(2/1000), -(1/1000), -(8/10000), -(5/10000), -(2/10000), -(1/10000), 0, 1/10000, 2/10000, 5/10000, 8/10000, 1/1000, 2/1000, 5/1000, 8/1000, 1/100, 2/100, 5/100, 8/100, 1/10, 1/10]

end Verif.Analyzer
