import Verif.Base.Types
/-!
# The scan detector, libCacheSim/traceAnalyzer/experimental/scanDetector.h

Simplifications: `int` and `int64_t` are unbounded; the trace is the list of the `next_access_vtime` of its requests; the environment variable MIN_SCAN_SIZE is a parameter;
of the output files only the two vectors they print are kept.
-/

namespace Verif.ScanDetector
open Verif

/-- `ScanStream`, scanDetector.h:25-38 -/
structure Stream where
  start : Nat
  next : Int
  n : Nat := 1
  times : List Nat
deriving DecidableEq, Repr

/-- the fields of `ScanDetector`, scanDetector.h:207-225; `n_active_stream_` is the length of `scan_stream_vec_` -/
structure St where
  streams : List Stream := []
  now : Nat := 0
  nScan : Nat := 0
  nNon : Nat := 0
  marks : List Bool
  sizes : List Nat := []
deriving DecidableEq, Repr

/-- the constructor, scanDetector.h:41-58: one mark for every request of the trace -/
def init (len : Nat) : St := { marks := List.replicate len false }

/-- `is_part_of_scan`, scanDetector.h:87-102 -/
def isPart (D : Int) (ss : Stream) (now : Nat) (next : Int) : Bool :=
  if (now : Int) > ss.start + D + ss.n ∨ (now : Int) < ss.start - D - ss.n then false
  else if next < ss.next - D - ss.n ∨ next > ss.next + D + ss.n then false
  else true

/-- the search for a stream, scanDetector.h:119-127; `none` if there is none -/
def join (D : Int) (now : Nat) (next : Int) : List Stream → Option (List Stream)
  | [] => none
  | ss :: rest =>
    if isPart D ss now next then some ({ ss with n := ss.n + 1, times := ss.times ++ [now] } :: rest)
    else (join D now next rest).map (fun l => ss :: l)

/-- the marks of a stream, scanDetector.h:139-141 -/
def markAll : List Bool → List Nat → Res (List Bool)
  | marks, [] => .ok marks
  | marks, t :: ts => if t < marks.length then markAll (marks.set t true) ts else .error .outOfBounds

/-- the accounting of a finished stream, scanDetector.h:137-146 -/
def account (m : Int) (s : St) (ss : Stream) : Res St :=
  if (ss.n : Int) > m then
    markAll s.marks ss.times >>= fun marks => .ok { s with nScan := s.nScan + ss.n, marks := marks, sizes := s.sizes ++ [ss.n] }
  else .ok { s with nNon := s.nNon + ss.n, sizes := s.sizes ++ [ss.n] }

/-- element `pos` is overwritten with the last one, which is dropped, scanDetector.h:148-151 -/
def swapOut (l : List Stream) (pos : Nat) : List Stream :=
  match l.getLast? with
  | none => l
  | some x => (l.set pos x).dropLast

/-- the loop over the streams, scanDetector.h:132-154; `fuel` bounds the iterations, `diverge` marks a loop that is not over then -/
def retire (D m : Int) : Nat → Nat → St → Res St
  | 0, pos, s => if pos < s.streams.length then .error .diverge else .ok s
  | fuel + 1, pos, s =>
    match s.streams[pos]? with
    | none => .ok s
    | some ss =>
      if (s.now : Int) > ss.start + D + ss.n then
        account m s ss >>= fun s' => retire D m fuel (pos + 1) { s' with streams := swapOut s'.streams pos }
      else retire D m fuel (pos + 1) s

/-- `add_req`, scanDetector.h:104-165; INT64_MAX is 9223372036854775807 -/
def add (D m : Int) (s : St) (next : Int) : Res St :=
  if next = -2 then .error .abort
  else if next = -1 ∨ next = 9223372036854775807 then .ok { s with nNon := s.nNon + 1, now := s.now + 1 }
  else match join D s.now next s.streams with
    | some l => .ok { s with streams := l, now := s.now + 1 }
    | none =>
      (if (s.streams.length : Int) ≥ D - 1 then retire D m s.streams.length 0 s else .ok s) >>= fun s' =>
      .ok { s' with streams := s'.streams ++ [{ start := s.now, next := next, times := [s.now] }], now := s.now + 1 }

/-- the calls of `add_req`, analyzer.cpp:214-216 -/
def run (D m : Int) : St → List Int → Res St
  | s, [] => .ok s
  | s, x :: xs => add D m s x >>= fun s' => run D m s' xs

end Verif.ScanDetector
