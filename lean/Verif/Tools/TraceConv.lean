import Verif.Reader.Reader
/-!
# libCacheSim/bin/traceUtils/traceConv.cpp: converting a trace to the oracleGeneral format

The `-o txt` copy and the LCS header (no caller asks for it, traceConvMain.cpp:38-40) are not modelled, nor is progress output.
-/

namespace Verif.TraceConv
open Verif Verif.Reader

/-- `oracleGeneral_req_t`, traceConv.cpp:15-26 -/
structure Rec where
  time : Nat
  id : Nat
  size : Nat
  next : Int
deriving DecidableEq, Repr

/-- `oracleGeneral_req_t::init`, traceConv.cpp:21-25: the assignments convert to uint32, uint64 and uint32; `next_access_vtime` keeps its value
and is set before it is used -/
def Rec.init (q : Request) : Rec :=
  ⟨((q.vals .time) % 4294967296).toNat, ((q.vals .id) % 18446744073709551616).toNat, ((q.vals .size) % 4294967296).toNat, 0⟩

/-- the `k` bytes of an unsigned member as the machine stores them -/
def store : Nat → Nat → List Nat
  | 0, _ => []
  | k + 1, v => v % 256 :: store k (v / 256)

/-- the 24 bytes of a packed record, `ofile.write(&og_req, sizeof)`, traceConv.cpp:239 -/
def Rec.bytes (r : Rec) : List Nat :=
  store 4 r.time ++ (store 8 r.id ++ (store 4 r.size ++ store 8 (r.next % 18446744073709551616).toNat))

/-- the variables of the loop: `last_access_map` and `n_req_curr` (traceConv.cpp:57-62) -/
structure Acc where
  last : Nat → Option Int
  n : Nat

/-- traceConv.cpp:77-85: what is written for the request just read -/
def mark (a : Acc) (q : Request) : Rec := { Rec.init q with next := (a.last (Rec.init q).id).getD (-1) }

/-- traceConv.cpp:88-92 -/
def note (a : Acc) (q : Request) : Acc :=
  ⟨fun i => if i = ((q.vals .id) % 18446744073709551616).toNat then some a.n else a.last i, a.n + 1⟩

/-- the loop, traceConv.cpp:76-113: the records in the order they are written to the temporary file, and `n_req_curr` -/
def convLoop (hash : Nat → Nat) (total : Nat) : Nat → Reader → Request → Acc → Res (List Rec × Nat)
  | 0, _, _, _ => .error .diverge
  | fuel + 1, rd, q, a =>
    if (note a q).n > total * 2 then .error .abort
    else
      readAbove hash rd q >>= fun r =>
      if r.1 ≠ 0 then .ok ([mark a q], (note a q).n)
      else convLoop hash total fuel r.2.1 r.2.2 (note a q) >>= fun t => .ok (mark a q :: t.1, t.2)

/-- traceConv.cpp:225-237: one record of the temporary file, with the sizes first seen -/
def fix (nReq : Nat) (keepSize : Bool) (sizes : Nat → Option Nat) (r : Rec) : Rec × (Nat → Option Nat) :=
  let next := if r.next ≠ -1 then (nReq : Int) - r.next else r.next
  if keepSize then
    match sizes r.id with
    | some z => ({ r with next := next, size := z }, sizes)
    | none => ({ r with next := next }, fun i => if i = r.id then some r.size else sizes i)
  else ({ r with next := next }, sizes)

def fixAll (nReq : Nat) (keepSize : Bool) : (Nat → Option Nat) → List Rec → List Rec
  | _, [] => []
  | sizes, r :: l => (fix nReq keepSize sizes r).1 :: fixAll nReq keepSize (fix nReq keepSize sizes r).2 l

/-- `_reverse_file`, traceConv.cpp:178-260: the temporary file is read from its end in steps of one record (that the 24 bytes of a record give the
record back is not modelled) -/
def reverseFile (nReq : Nat) (keepSize : Bool) (tmp : List Rec) : List Nat :=
  (fixAll nReq keepSize (fun _ => none) tmp.reverse).flatMap Rec.bytes

/-- `convert_to_oracleGeneral`, traceConv.cpp:51-137; `fuel` bounds the number of requests -/
def convert (hash : Nat → Nat) (rd : Reader) (keepSize : Bool) : Res (List Nat) :=
  numReq rd >>= fun total =>
  readOne hash (goBackOne (setPos { rd with fwd := false } rd.bytes.length)).2 newRequest >>= fun r =>
  convLoop hash total (rd.bytes.length + 1) r.2.1 r.2.2 ⟨fun _ => none, 0⟩ >>= fun t =>
  if rd.sampler = none ∧ t.2 ≠ total then .error .assertFail
  else .ok (reverseFile t.2 keepSize t.1)

end Verif.TraceConv
