import Verif.Reader.Format
import Verif.Utils.Sampling
/-!
# libCacheSim/traceReader/reader.c for binary traces

Compressed and text traces are not modelled; `n_req_left` is only set by the csv reader and is 0 here.
-/

namespace Verif.Reader
open Verif

/-- `request_t` -/
structure Request where
  vals : Vals
  hv : Nat
  valid : Bool

/-- `new_request`, request.h:71-83; `OP_INVALID` = 15 (enum.h:109-128) -/
def newRequest : Request := ⟨fun f => match f with | .size => 1 | .op => 15 | .next => -2 | _ => 0, 0, true⟩

inductive Sampler where
  | spatial (inv : Nat)
  | temporal (inv : Nat) (n : Int)
deriving DecidableEq, Repr

/-- `sampler->sample(sampler, req)` -/
def Sampler.sample (hash : Nat → Nat) : Sampler → Request → Res (Bool × Sampler × Request)
  | .spatial inv, q =>
    Sampling.spatialSample hash inv ⟨(q.vals .id).toNat, q.hv⟩ >>= fun r => .ok (r.1, .spatial inv, { q with hv := r.2.hv })
  | .temporal inv n, q =>
    .ok ((Sampling.temporalSample inv n).1, .temporal inv (Sampling.temporalSample inv n).2, q)

/-- the relevant part of `reader_init_param_t` -/
structure Params where
  ignoreZero : Bool
  ignoreSize : Bool
  cap : Int
  start : Nat
  sampler : Option Sampler
deriving DecidableEq, Repr

/-- `reader_t`, reader.h:75-129, the fields used by uncompressed binary traces -/
structure Reader where
  fmt : Fmt
  bytes : List Nat
  start : Nat
  /-- `mmap_offset` -/
  off : Nat
  ignoreZero : Bool
  ignoreSize : Bool
  /-- `cap_at_n_req` -/
  cap : Int
  /-- `n_read_req` -/
  nRead : Nat
  fwd : Bool
  sampler : Option Sampler
  /-- `init_params`, what `clone_reader` starts from -/
  params : Params

/-- `set_default_reader_init_params`, reader.h:131-155 -/
def defaultParams : Params := ⟨true, false, -1, 0, none⟩

/-- a sampler's `clone`: the temporal one starts counting anew -/
def Sampler.clone : Sampler → Sampler
  | .spatial inv => .spatial inv
  | .temporal inv _ => .temporal inv 0

/-- `setup_reader`, reader.c:41-256, with init params; an empty file cannot be mapped (reader.c:118-131 aborts) -/
def setup (F : Fmt) (bytes : List Nat) (p : Params) : Res Reader :=
  if bytes.length = 0 then .error .abort
  else .ok ⟨F, bytes, p.start, p.start, p.ignoreZero, p.ignoreSize, p.cap, 0, true, p.sampler.map Sampler.clone, p⟩

/-- `setup_reader` with `init_params == NULL`, reader.c:72-94: the defaults are set by hand, `cap_at_n_req` is left as `malloc`
returned it (`garbage`), and the stored `init_params` are all zero -/
def setupNull (F : Fmt) (bytes : List Nat) (garbage : Int) : Res Reader :=
  if bytes.length = 0 then .error .abort
  else .ok ⟨F, bytes, 0, 0, true, false, garbage, 0, true, none, ⟨false, false, 0, 0, none⟩⟩

/-- `clone_reader`, reader.c:594-604 -/
def clone (rd : Reader) : Res Reader := setup rd.fmt rd.bytes rd.params

/-- the format's `*_read_one_req` with its zero-size recursion (`fuel` bounds the number of records): `_read_bytes`
(binaryUtils.h:14-23) fails at or beyond the end of the file and otherwise advances by `item_size` -/
def readRec : Nat → Reader → Request → Res (Int × Reader × Request)
  | 0, _, _ => .error .diverge
  | fuel + 1, rd, q =>
    if rd.off ≥ rd.bytes.length then .ok (1, rd, { q with valid := false })
    else
      rd.fmt.decode rd.bytes rd.off q.vals >>= fun x =>
      if rd.fmt.skip rd.ignoreZero rd.fwd x then
        readRec fuel { rd with off := rd.off + rd.fmt.item } { q with vals := x }
      else .ok (0, { rd with off := rd.off + rd.fmt.item }, { q with vals := x })

/-- enough for every record of the file -/
def Reader.fuel (rd : Reader) : Nat := rd.bytes.length + 1

/-- `read_one_req` up to the sampling, reader.c:265-383: the flag tells whether it returned early (end of file or cap) -/
def readPre (rd : Reader) (q : Request) : Res (Bool × Int × Reader × Request) :=
  if rd.off ≥ rd.bytes.length then .ok (true, 1, rd, { q with valid := false })
  else if rd.cap > 1 ∧ (rd.nRead : Int) ≥ rd.cap then .ok (true, 1, rd, { q with valid := false })
  else readRec rd.fuel { rd with nRead := rd.nRead + 1 } { vals := q.vals.set .ttl (-1), hv := 0, valid := true } >>= fun r =>
    .ok (false, r)

/-- reader.c:401-403 -/
def applyIgnoreSize (rd : Reader) (q : Request) : Request :=
  if rd.ignoreSize then { q with vals := q.vals.set .size 1 } else q

/-- `read_one_req` of a reader without sampler, reader.c:265-408 -/
def readPlain (rd : Reader) (q : Request) : Res (Int × Reader × Request) :=
  readPre rd q >>= fun r =>
  if r.1 then .ok r.2 else .ok (r.2.1, r.2.2.1, applyIgnoreSize r.2.2.1 r.2.2.2)

/-- `go_back_one_req`, reader.c:417-475, binary case -/
def goBackOne (rd : Reader) : Int × Reader :=
  if rd.off ≥ rd.start + rd.fmt.item then (0, { rd with off := rd.off - rd.fmt.item }) else (1, rd)

/-- `go_back_two_req`, reader.c:477-486 -/
def goBackTwo (rd : Reader) : Int × Reader :=
  if (goBackOne rd).1 = 0 then goBackOne (goBackOne rd).2 else (1, (goBackOne rd).2)

/-- `read_one_req_above`, reader.c:499-512, of a reader without sampler -/
def abovePlain (rd : Reader) (q : Request) : Res (Int × Reader × Request) :=
  if (goBackTwo rd).1 = 0 then readPlain (goBackTwo rd).2 q
  else .ok (1, (goBackTwo rd).2, { q with valid := false })

/-- the sampling loop, reader.c:385-400 (`reader->sampler` is NULL meanwhile); returns early when a read fails -/
def sampleLoop (hash : Nat → Nat) : Nat → Sampler → Reader → Int → Request → Res (Bool × Int × Sampler × Reader × Request)
  | 0, _, _, _, _ => .error .diverge
  | fuel + 1, s, rd, status, q =>
    s.sample hash q >>= fun r =>
    if r.1 then .ok (false, status, r.2.1, rd, r.2.2)
    else
      (if rd.fwd then readPlain rd r.2.2 else abovePlain rd r.2.2) >>= fun p =>
      if p.1 ≠ 0 then .ok (true, p.1, r.2.1, p.2.1, p.2.2)
      else sampleLoop hash fuel r.2.1 p.2.1 p.1 p.2.2

/-- `read_one_req`, reader.c:265-408 -/
def readOne (hash : Nat → Nat) (rd : Reader) (q : Request) : Res (Int × Reader × Request) :=
  match rd.sampler with
  | none => readPlain rd q
  | some s =>
    readPre rd q >>= fun r =>
    if r.1 then .ok r.2
    else
      sampleLoop hash rd.fuel s { r.2.2.1 with sampler := none } r.2.1 r.2.2.2 >>= fun t =>
      if t.1 then .ok (t.2.1, { t.2.2.2.1 with sampler := some t.2.2.1 }, t.2.2.2.2)
      else .ok (t.2.1, { t.2.2.2.1 with sampler := some t.2.2.1 }, applyIgnoreSize t.2.2.2.1 t.2.2.2.2)

/-- `read_one_req_above`, reader.c:499-512 -/
def readAbove (hash : Nat → Nat) (rd : Reader) (q : Request) : Res (Int × Reader × Request) :=
  if (goBackTwo rd).1 = 0 then readOne hash (goBackTwo rd).2 q
  else .ok (1, (goBackTwo rd).2, { q with valid := false })

/-- `skip_n_req`, reader.c:520-548, binary case, for `N ≥ 0` -/
def skipN (rd : Reader) (n : Nat) : Nat × Reader :=
  if rd.off + n * rd.fmt.item ≤ rd.bytes.length then (n, { rd with off := rd.off + n * rd.fmt.item })
  else ((rd.bytes.length - rd.off) / rd.fmt.item, { rd with off := rd.bytes.length })

/-- `reset_reader`, reader.c:550-572 -/
def reset (rd : Reader) : Reader := { rd with off := rd.start, nRead := 0 }

/-- `get_num_of_req`, reader.c:574-592, with `n_total_req` from `setup_reader` (reader.c:236); 0 records: "should not reach
here", abort -/
def numReq (rd : Reader) : Res Nat :=
  if (rd.bytes.length - rd.start) / rd.fmt.item > 0 then .ok ((rd.bytes.length - rd.start) / rd.fmt.item) else .error .abort

/-- `reader_set_read_pos`, reader.c:667-691, binary case; the offset `file_size * pos`, a double computation, is the parameter -/
def setPos (rd : Reader) (offset : Nat) : Reader := { rd with off := offset - offset % rd.fmt.item }

/-- `read_first_req`, reader.c:693-698 -/
def readFirst (hash : Nat → Nat) (rd : Reader) (q : Request) : Res (Reader × Request) :=
  readOne hash (reset rd) q >>= fun r => .ok ({ r.2.1 with off := rd.off }, r.2.2)

/-- `read_last_req`, reader.c:700-708 -/
def readLast (hash : Nat → Nat) (rd : Reader) (q : Request) : Res (Reader × Request) :=
  readOne hash (goBackOne (setPos (reset rd) rd.bytes.length)).2 q >>= fun r => .ok ({ r.2.1 with off := rd.off }, r.2.2)

/-- read until a read fails: the usual loop of a client -/
def readAll (hash : Nat → Nat) : Nat → Reader → Request → Res (List Request × Reader)
  | 0, _, _ => .error .diverge
  | fuel + 1, rd, q =>
    readOne hash rd q >>= fun r =>
    if r.1 ≠ 0 then .ok ([], r.2.1)
    else readAll hash fuel r.2.1 r.2.2 >>= fun t => .ok (r.2.2 :: t.1, t.2)

/-- the rest of the loop of `convert_to_oracleGeneral`, bin/traceUtils/traceConv.cpp:110-113: read the request above until that fails -/
def readUp (hash : Nat → Nat) : Nat → Reader → Request → Res (List Request)
  | 0, _, _ => .error .diverge
  | fuel + 1, rd, q =>
    readAbove hash rd q >>= fun r =>
    if r.1 ≠ 0 then .ok []
    else readUp hash fuel r.2.1 r.2.2 >>= fun t => .ok (r.2.2 :: t)

/-- reading a trace backwards the way `convert_to_oracleGeneral` does, bin/traceUtils/traceConv.cpp:66-113; the status of the first
read is not looked at -/
def readBackward (hash : Nat → Nat) (rd : Reader) (q : Request) : Res (List Request) :=
  readOne hash (goBackOne (setPos { rd with fwd := false } rd.bytes.length)).2 q >>= fun r =>
  readUp hash (rd.bytes.length + 1) r.2.1 r.2.2 >>= fun t => .ok (r.2.2 :: t)

end Verif.Reader
