import Verif.Reader.LibCsv
import Verif.Reader.CLib
import Verif.Reader.Reader
/-!
# libCacheSim/traceReader/generalReader/csv.c, txt.c, and reader.c for these two text formats

The file is a list of bytes that does not change.  Samplers are not modelled here (see `Verif/Reader/Reader.lean` for reading with a sampler).  `hash` is `get_hash_value_str`.
-/

namespace Verif.Text
open Verif Verif.Csv Verif.CLib
open Verif.Reader (Request Vals Fld sWrap newRequest)

/-- the relevant part of `reader_init_param_t`, reader.h:38-65 -/
structure Params where
  ignoreSize : Bool := false
  ignoreZero : Bool := true
  idIsNum : Bool := true
  cap : Int := -1
  timeField : Int := 0
  idField : Int := 0
  sizeField : Int := 0
  cntField : Int := 0
  hasHeader : Bool := false
  hasHeaderSet : Bool := false
  /-- 0: to be detected -/
  delimiter : Nat := 44
  start : Nat := 0
deriving DecidableEq, Repr

/-- `csv_params_t`, readerInternal.h:20-38 -/
structure CsvParams where
  parser : Parser
  /-- `curr_field_idx` -/
  idx : Int := 1
  timeField : Int
  idField : Int
  sizeField : Int
  cntField : Int
  hasHeader : Bool
  delimiter : Nat
deriving DecidableEq, Repr

/-- `reader_t`, reader.h:75-129, the fields used by text traces -/
structure TReader where
  /-- `reader_params` of a csv trace; `none`: a plain text trace -/
  csv : Option CsvParams
  bytes : List Nat
  /-- `trace_start_offset` -/
  start : Nat
  /-- `mmap_offset`, which text traces do not advance -/
  mmapOff : Nat
  /-- position of the `FILE` -/
  pos : Nat
  idIsNum : Bool
  ignoreZero : Bool
  ignoreSize : Bool
  cap : Int
  nRead : Nat := 0
  /-- `n_req_left` -/
  nLeft : Int := 0
  /-- `last_req_clock_time` -/
  lastTime : Int := -1
  fwd : Bool := true
  /-- the strings known to `g_quark_from_string`, in order of their first use -/
  quarks : List (List Nat) := []
  params : Params
deriving DecidableEq, Repr

/-! ## Opening -/

/-- `read_first_line(reader, buf, 1024)`, csv.c:46-69: the first line with its newline.  The copy of `read_size + 1` bytes overruns the 1024-byte buffer if the line has
1024 bytes or more; at the end of the file `read_size` is -1, which becomes 1024 in the comparison with a `size_t`. -/
def firstLine (bytes : List Nat) : Res (List Nat) :=
  match getline bytes 0 with
  | none => .error .outOfBounds
  | some l => if l.length < 1024 then .ok l else .error .outOfBounds

/-- `csv_detect_delimiter`, csv.c:80-107: the weights are 4 for tab, 3 for `,`, 2 for `|` and 1 for `:`. -/
def detectDelimiter (bytes : List Nat) : Res Nat :=
  firstLine bytes >>= fun l =>
  let count := fun (c : Nat) => (cstr l).count c
  let pick := fun (acc : Nat × Nat) (p : Nat × Nat) => if count p.1 * p.2 > acc.1 then (count p.1 * p.2, p.1) else acc
  let best := [(9, 4), (44, 3), (124, 2), (58, 1)].foldl pick (0, 0)
  if best.2 ≠ 0 then .ok best.2 else .error .assertFail

/-- `csv_detect_header`, csv.c:119-155: a header unless there are more digits than letters. -/
def detectHeader (bytes : List Nat) : Res Bool :=
  firstLine bytes >>= fun l => .ok (!decide (l.countP isDigit > l.countP isAlpha))

/-- `check_delimiter`, csv.c:165-185, which looks at the first line 1024 times; `strchr` finds the terminating NUL if the delimiter is NUL. -/
def checkDelimiter (bytes : List Nat) (delim : Nat) : Res Bool :=
  match getline bytes 0 with
  | none => .error .uninit
  | some l => .ok (delim = 0 || (cstr l).contains delim)

/-- `csv_setup_reader`, csv.c:243-283 and reader.c:140-146; `check_delimiter` failing logs an error, which aborts. -/
def setupCsv (bytes : List Nat) (p : Params) : Res TReader :=
  (if p.delimiter = 0 then detectDelimiter bytes else .ok p.delimiter) >>= fun d =>
  (if p.hasHeaderSet then .ok p.hasHeader else detectHeader bytes) >>= fun h =>
  checkDelimiter bytes p.delimiter >>= fun ok =>
  let hl := if h then ((getline bytes 0).getD []).length else 0
  if ok then
    .ok { csv := some { parser := { delim := d }, timeField := p.timeField, idField := p.idField, sizeField := p.sizeField, cntField := p.cntField, hasHeader := h, delimiter := d }
          bytes := bytes, start := if h then hl else p.start, mmapOff := p.start, pos := hl, idIsNum := p.idIsNum, ignoreZero := p.ignoreZero, ignoreSize := p.ignoreSize, cap := p.cap, params := p }
  else .error .abort

/-- `setup_reader` for `PLAIN_TXT_TRACE`, reader.c:41-150 -/
def setupTxt (bytes : List Nat) (p : Params) : TReader :=
  { csv := none, bytes := bytes, start := p.start, mmapOff := p.start, pos := 0, idIsNum := p.idIsNum, ignoreZero := p.ignoreZero, ignoreSize := p.ignoreSize, cap := p.cap, params := p }

/-! ## Reading -/

/-- `csv_cb1`, csv.c:193-222: the request, `n_req_left` and the field index -/
def cb1 (hash : List Nat → Nat) (rd : TReader) (c : CsvParams) (q : Request) (s : List Nat) : Res (Request × Int) :=
  if c.idx = c.idField then
    let v : Int := if rd.idIsNum then (strtoull (cstr s)).getD 0 else hash s % 2 ^ 64
    .ok ({ q with vals := q.vals.set .id v }, rd.nLeft)
  else if c.idx = c.timeField then
    atofU64 (cstr s) >>= fun v => .ok ({ q with vals := q.vals.set .time (sWrap 64 v) }, rd.nLeft)
  else if c.idx = c.sizeField then
    .ok ({ q with vals := q.vals.set .size (((strtoull (cstr s)).getD 0 % 2 ^ 32 : Nat) : Int) }, rd.nLeft)
  else if c.idx = c.cntField then
    .ok (q, sWrap 32 (((strtoull (cstr s)).getD 0 : Int) - 1))
  else .ok (q, rd.nLeft)

/-- the callbacks in order; `csv_cb2`, csv.c:230-236, resets the field index -/
def callbacks (hash : List Nat → Nat) : List Ev → TReader → CsvParams → Request → Res (TReader × CsvParams × Request)
  | [], rd, c, q => .ok (rd, c, q)
  | .field s :: es, rd, c, q =>
    cb1 hash rd c q s >>= fun r => callbacks hash es { rd with nLeft := r.2 } { c with idx := c.idx + 1 } r.1
  | .row _ :: es, rd, c, q => callbacks hash es rd { c with idx := 1 } q

/-- one line of `csv_read_one_req`, csv.c:292-313 -/
def csvRow (hash : List Nat → Nat) (rd : TReader) (c : CsvParams) (q : Request) : Res (Option (TReader × Request)) :=
  match getline rd.bytes rd.pos with
  | none => .ok none
  | some l =>
    parse c.parser l >>= fun r =>
    fini r.2 >>= fun t =>
    callbacks hash (r.1 ++ t.1) { rd with pos := rd.pos + l.length } { c with parser := t.2 } q >>= fun u =>
    .ok (some ({ u.1 with csv := some u.2.1 }, u.2.2))

/-- `read_one_req`, reader.c:265-408, around the format's own function `body` -/
def readWith (body : TReader → Request → Res (Int × TReader × Request)) (rd : TReader) (q : Request) : Res (Int × TReader × Request) :=
  if rd.mmapOff ≥ rd.bytes.length then .ok (1, rd, { q with valid := false })
  else if rd.cap > 1 ∧ (rd.nRead : Int) ≥ rd.cap then .ok (1, rd, { q with valid := false })
  else
    (if rd.nLeft > 0 then .ok (0, { rd with nLeft := rd.nLeft - 1 }, { q with vals := q.vals.set .time rd.lastTime })
     else body { rd with nRead := rd.nRead + 1 } { vals := q.vals.set .ttl (-1), hv := 0, valid := true }) >>= fun r =>
    .ok (r.1, r.2.1, if r.2.1.ignoreSize then { r.2.2 with vals := r.2.2.vals.set .size 1 } else r.2.2)

/-- one round of the loop of `go_back_one_req`, reader.c:430-462, at position `pos` of the file; `total` is `total_seek_size` before
the round.  The answer: the status to return and the new position, or the position for the next round. -/
def backRound (bytes : List Nat) (start maxSeek total pos : Nat) : Res (Except Nat (Int × Nat)) :=
  let seek := min 1024 (maxSeek - total)
  let p0 := seekCur pos (-(seek : Int))
  let data := (bytes.drop p0).take (seek - 1)
  if data.length = 0 then .error .outOfBounds
  else
    let p1 := p0 + data.length
    match strrchr (data.take (data.length - 1)) 10 with
    | none =>
      if seek < 1024 then .ok (.ok (0, start))
      else if total + seek < maxSeek then .ok (.error (seekCur p1 (-1024)))
      else .ok (.ok (1, p1))
    | some i => .ok (.ok (0, seekCur p1 (-((seek : Int) - ((i : Int) + 2)))))

/-- the loop of `go_back_one_req` -/
def backLoop (bytes : List Nat) (start maxSeek : Nat) : Nat → Nat → Nat → Res (Int × Nat)
  | 0, _, _ => .error .diverge
  | fuel + 1, total, pos =>
    backRound bytes start maxSeek total pos >>= fun r =>
    match r with
    | .ok a => .ok a
    | .error p => backLoop bytes start maxSeek fuel (total + min 1024 (maxSeek - total)) p

/-- `go_back_one_req`, reader.c:417-462, text case -/
def goBackOne (rd : TReader) : Res (Int × TReader) :=
  if rd.pos ≤ rd.start then .ok (1, rd)
  else backLoop rd.bytes rd.start (rd.pos - rd.start) (rd.bytes.length + 1) 0 rd.pos >>= fun r => .ok (r.1, { rd with pos := r.2 })

/-- `go_back_two_req`, reader.c:477-486 -/
def goBackTwo (rd : TReader) : Res (Int × TReader) :=
  goBackOne rd >>= fun r => if r.1 = 0 then goBackOne r.2 else .ok (1, r.2)

/-- `csv_read_one_req`, csv.c:292-326; a request of size 0 is skipped, by `read_one_req_above` (reader.c:499-512) when reading backwards -/
def csvRead (hash : List Nat → Nat) : Nat → TReader → Request → Res (Int × TReader × Request)
  | 0, _, _ => .error .diverge
  | fuel + 1, rd, q =>
    match rd.csv with
    | none => .error .nullDeref
    | some c =>
      csvRow hash rd c q >>= fun r =>
      match r with
      | none => .ok (1, rd, { q with valid := false })
      | some (rd', q') =>
        if q'.vals .size = 0 ∧ rd'.ignoreZero then
          if rd'.fwd then csvRead hash fuel rd' q'
          else if rd'.nLeft > 0 then .ok (0, { rd' with nLeft := rd'.nLeft - 1 }, { q' with vals := q'.vals.set .time rd'.lastTime })
          else
            goBackTwo rd' >>= fun b =>
            if b.1 = 0 then readWith (csvRead hash fuel) b.2 q' else .ok (1, b.2, { q' with valid := false })
        else .ok (0, if rd'.nLeft > 0 then { rd' with lastTime := q'.vals .time } else rd', q')

/-- the position in a list, or its length: `g_quark_from_string` numbers strings from 1 in order of their first use -/
def quark (known : List (List Nat)) (s : List Nat) : Nat × List (List Nat) :=
  if s ∈ known then (known.idxOf s + 1, known) else (known.length + 1, known ++ [s])

/-- the line at `pos` after skipping empty lines, and the position after it, txt.c:11-19 -/
def skipEmpty (bytes : List Nat) : Nat → Nat → Option (List Nat × Nat)
  | 0, _ => none
  | fuel + 1, pos =>
    match getline bytes pos with
    | none => none
    | some l => if l = [10] then skipEmpty bytes fuel (pos + 1) else some (l, pos + l.length)

/-- `txt_read_one_req`, txt.c:8-40; the logged error aborts -/
def txtRead (rd : TReader) (q : Request) : Res (Int × TReader × Request) :=
  match skipEmpty rd.bytes (rd.bytes.length + 1) rd.pos with
  | none => .ok (1, { rd with pos := max rd.pos rd.bytes.length }, { q with valid := false })
  | some (l, pos') =>
    if rd.idIsNum then
      match strtoull (cstr l) with
      | none => .error .abort
      | some v => .ok (0, { rd with pos := pos' }, { q with vals := q.vals.set .id v })
    else
      let s := cstr (if l.getLast? = some 10 then l.dropLast else l)
      .ok (0, { rd with pos := pos', quarks := (quark rd.quarks s).2 }, { q with vals := q.vals.set .id (quark rd.quarks s).1 })

/-- `read_one_req`, reader.c:265-408 -/
def readOne (hash : List Nat → Nat) (rd : TReader) (q : Request) : Res (Int × TReader × Request) :=
  readWith (if rd.csv.isSome then csvRead hash (rd.bytes.length + 2) else txtRead) rd q

/-- `read_one_req_above`, reader.c:499-512 -/
def readAbove (hash : List Nat → Nat) (rd : TReader) (q : Request) : Res (Int × TReader × Request) :=
  if rd.nLeft > 0 then .ok (0, { rd with nLeft := rd.nLeft - 1 }, { q with vals := q.vals.set .time rd.lastTime })
  else goBackTwo rd >>= fun b => if b.1 = 0 then readOne hash b.2 q else .ok (1, b.2, { q with valid := false })

/-! ## Moving around -/

/-- `skip_n_req`, reader.c:520-531, text case: the number of lines skipped -/
def skipN (rd : TReader) : Nat → Nat × TReader
  | 0 => (0, rd)
  | n + 1 =>
    match getline rd.bytes rd.pos with
    | none => (0, rd)
    | some l => ((skipN { rd with pos := rd.pos + l.length } n).1 + 1, (skipN { rd with pos := rd.pos + l.length } n).2)

/-- `csv_reset_reader`, csv.c:328-342, and `reset_reader`, reader.c:550-572: `n_req_left` is not reset -/
def reset (rd : TReader) : TReader :=
  match rd.csv with
  | none => { rd with nRead := 0, pos := 0 }
  | some c =>
    { rd with
      nRead := 0
      csv := some { c with parser := if c.delimiter ≠ 0 then { delim := c.delimiter } else {} }
      pos := if c.hasHeader then ((getline rd.bytes 0).getD []).length else 0 }

/-- `clone_reader`, reader.c:594-604.  The quarks are global to the process. -/
def clone (rd : TReader) : Res TReader :=
  if rd.csv.isSome then setupCsv rd.bytes rd.params else .ok { setupTxt rd.bytes rd.params with quarks := rd.quarks }

/-- the loop over trailing white space in `reader_set_read_pos`, reader.c:682-685, at a position after reading the character `c` -/
def backSpaces (bytes : List Nat) : Nat → Nat → Nat → Res Nat
  | 0, _, _ => .error .diverge
  | fuel + 1, pos, c =>
    if isSpace c then
      match (bytes.drop (seekCur pos (-2))).head? with
      | some c' => backSpaces bytes fuel (seekCur pos (-2) + 1) c'
      | none => backSpaces bytes fuel (seekCur pos (-2)) c
    else .ok pos

/-- `reader_set_read_pos`, reader.c:667-686, text case; the offset `file_size * pos` is the parameter -/
def setPos (rd : TReader) (offset : Nat) : Res TReader :=
  if offset = rd.bytes.length then
    match (rd.bytes.drop (seekCur offset (-1))).head? with
    | none => .error .uninit
    | some c => backSpaces rd.bytes (2 * rd.bytes.length + 2) (seekCur offset (-1) + 1) c >>= fun p => .ok { rd with pos := p }
  else if offset = 0 then .ok { rd with pos := 0 }
  else goBackOne { rd with pos := offset } >>= fun r => .ok r.2

/-- `read_first_req`, reader.c:693-698: the position of a text file is not restored -/
def readFirst (hash : List Nat → Nat) (rd : TReader) (q : Request) : Res (TReader × Request) :=
  readOne hash (reset rd) q >>= fun r => .ok (r.2.1, r.2.2)

/-- `read_last_req`, reader.c:700-708 -/
def readLast (hash : List Nat → Nat) (rd : TReader) (q : Request) : Res (TReader × Request) :=
  setPos (reset rd) rd.bytes.length >>= fun r =>
  goBackOne r >>= fun b =>
  readOne hash b.2 q >>= fun t => .ok (t.2.1, t.2.2)

/-- read until a read fails: the usual loop of a client -/
def readAll (hash : List Nat → Nat) : Nat → TReader → Request → Res (List Request × TReader)
  | 0, _, _ => .error .diverge
  | fuel + 1, rd, q =>
    readOne hash rd q >>= fun r =>
    if r.1 ≠ 0 then .ok ([], r.2.1)
    else readAll hash fuel r.2.1 r.2.2 >>= fun t => .ok (r.2.2 :: t.1, t.2)

/-- `get_num_of_req`, reader.c:574-592, the first time it is called; `fuel` bounds the number of requests -/
def numReq (hash : List Nat → Nat) (fuel : Nat) (rd : TReader) : Res Nat :=
  clone rd >>= fun c => readAll hash fuel { c with mmapOff := 0 } newRequest >>= fun r => .ok r.1.length

/-- the rest of the loop of `convert_to_oracleGeneral`, bin/traceUtils/traceConv.cpp:110-113 -/
def readUp (hash : List Nat → Nat) : Nat → TReader → Request → Res (List Request)
  | 0, _, _ => .error .diverge
  | fuel + 1, rd, q =>
    readAbove hash rd q >>= fun r =>
    if r.1 ≠ 0 then .ok []
    else readUp hash fuel r.2.1 r.2.2 >>= fun t => .ok (r.2.2 :: t)

/-- reading a trace backwards the way `convert_to_oracleGeneral` does, bin/traceUtils/traceConv.cpp:66-113 -/
def readBackward (hash : List Nat → Nat) (fuel : Nat) (rd : TReader) (q : Request) : Res (List Request) :=
  setPos { rd with fwd := false } rd.bytes.length >>= fun r =>
  goBackOne r >>= fun b =>
  readOne hash b.2 q >>= fun t =>
  readUp hash fuel t.2.1 t.2.2 >>= fun u => .ok (t.2.2 :: u)

end Verif.Text
