import Verif.Base.Types
import Verif.Cli.Str
/-!
# Converting block traces from text (libCacheSim/bin/dep/cpp/{traceConv.cpp,alibaba.h,tencent.h})

Lines are texts without NUL; records are written whole; the maps are functions. Left out: the photo traces (`strptime`, `std::hash`), progress messages, the names of the files.
-/

namespace Verif.BlockConv
open Verif Verif.Cli

/-- `struct trace_req`, common.h:8-14 -/
structure TReq where
  ts : Nat
  id : Nat
  sz : Nat
  op : Nat
  ns : Nat
deriving DecidableEq, Repr

/-- conversion to an unsigned type of `k` bits -/
def toU (k : Nat) (x : Int) : Nat := (x % (2 ^ k : Nat)).toNat

/-- `atoi`, as the GNU library does it: the lower 32 bits of `strtol` -/
def atoi (s : Str) : Int := (strtol10 s + 2147483648) % 4294967296 - 2147483648

/-- `atoll` -/
def atoll (s : Str) : Int := strtol10 s

/-- `p = strtok(.., ",")` followed by a use of `p` -/
def tok (s : Str) : Res (Str × Str) :=
  match strtok 44 s with
  | none => .error .nullDeref
  | some p => .ok p

/-- `parse_alibaba`, alibaba.h:5-35: device, operation, offset, size, time in microseconds -/
def parseAlibaba (line : Str) : Res TReq :=
  tok line >>= fun p1 => tok p1.2 >>= fun p2 => tok p2.2 >>= fun p3 => tok p3.2 >>= fun p4 => tok p4.2 >>= fun p5 =>
  let ns := toU 16 (atoi p1.1)
  if strtok 44 p5.2 = none then
    .ok { ns := ns
          op := if p2.1.head? = some 82 then 1 else if p2.1.head? = some 87 then 3 else 0
          id := (toU 64 (atoll p3.1) + ns) % 2 ^ 64
          sz := toU 32 (atoi p4.1)
          ts := toU 32 ((atoll p5.1).tdiv 1000000) }
  else .error .assertFail

/-- `parse_tencent_block`, tencent.h:7-35: time, offset, number of sectors, operation, device -/
def parseTencent (line : Str) : Res TReq :=
  tok line >>= fun p1 => tok p1.2 >>= fun p2 => tok p2.2 >>= fun p3 => tok p3.2 >>= fun p4 => tok p4.2 >>= fun p5 =>
  let sz := atoi p3.1 * 512
  let ns := toU 16 (atoi p5.1)
  if -2147483648 ≤ sz ∧ sz ≤ 2147483647 then
    if strtok 44 p5.2 = none then
      .ok { ts := toU 32 (atoi p1.1)
            sz := toU 32 sz
            op := if p4.1.head? = some 48 then 1 else if p4.1.head? = some 49 then 3 else 0
            ns := ns
            id := (toU 64 (atoll p2.1) + ns) % 2 ^ 64 }
    else .error .assertFail
  else .error .overflow

/-- what is written: time, object, size and, in the format `IQIbh`, operation and device -/
structure Out where
  ts : Nat
  id : Nat
  sz : Nat
  tail : Option (Nat × Nat)
deriving DecidableEq, Repr

/-- `write((char *)&req, write_size)`, traceConv.cpp:75-82, 112, 131, 142, 155: the lower 16 bits of the device -/
def out (ext : Bool) (q : TReq) : Out := ⟨q.ts, q.id, q.sz, if ext then some (q.op, q.ns % 65536) else none⟩

/-- `trace_start_ts`, the output file, `buffer_map`, `ofs_map` with the contents of the files -/
structure St where
  start : Nat := u32 - 1
  main : List Out := []
  buf : Nat → List TReq := fun _ => []
  files : Nat → Option (List Out) := fun _ => none

/-- the body of the loop of `main`, traceConv.cpp:107-148, for a parsed line; `B` is `BUFFER_SIZE`, `per` is `per_ns`. The assertion in the inner loop compares a request with the buffer it is in. -/
def step (ext per : Bool) (B : Nat) (st : St) (q : TReq) : Res St :=
  let start := if st.start = u32 - 1 then q.ts else st.start
  let q := { q with ts := (q.ts + u32 - start) % u32 }
  let main := st.main ++ [out ext q]
  if per then
    let b := st.buf q.ns ++ [q]
    if b.length ≥ B then
      if ext ∧ q.ns > 65535 then .error .abort
      else .ok
        { start := start
          main := main
          buf := fun n => if n = q.ns then [] else st.buf n
          files := fun n => if n = q.ns then some ((st.files n).getD [] ++ b.map (out ext)) else st.files n }
    else .ok { st with start := start, main := main, buf := fun n => if n = q.ns then b else st.buf n }
  else .ok { st with start := start, main := main }

/-- the loop of `main`, traceConv.cpp:98-149 -/
def loop (parse : Str → Res TReq) (ext per : Bool) (B : Nat) : St → List Str → Res St
  | st, [] => .ok st
  | st, l :: ls => parse l >>= fun q => step ext per B st q >>= fun st1 => loop parse ext per B st1 ls

/-- the last loop of `main`, traceConv.cpp:151-159: what is left in the buffers goes to the files there are -/
def flush (ext : Bool) (st : St) (n : Nat) : Option (List Out) := (st.files n).map (· ++ (st.buf n).map (out ext))

/-- `main`, traceConv.cpp:33-168, once the files are open: the output file and the file of each device -/
def convert (parse : Str → Res TReq) (ext per : Bool) (B : Nat) (lines : List Str) : Res (List Out × (Nat → Option (List Out))) :=
  loop parse ext per B {} lines >>= fun st => .ok (st.main, flush ext st)

/-- the check of the number of arguments and the last argument, traceConv.cpp:34-47: `none` is the message about the usage -/
def perArg (args : List Str) : Res (Option Bool) :=
  if args.length < 3 then .ok none
  else match args[3]? with
    | none => .error .nullDeref
    | some s => .ok (some (decide (atoi s ≠ 0)))

end Verif.BlockConv
