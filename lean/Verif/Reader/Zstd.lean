import Verif.Reader.Reader
/-!
# Compressed traces: traceReader/generalReader/zstdReader.c and its use in reader.c

The zstd library is a parameter: a machine that takes in bytes of the file and puts out decompressed bytes.  `zstd_reader_read_line` is called nowhere and is not modelled.  Of the binary formats those
are meant whose readers call `read_bytes` (customizedReader/binaryUtils.h:42-54), which are all but vscsi and the one with format letters.
-/

namespace Verif.Reader.Zstd
open Verif Verif.Reader

/-- `ZSTD_DStream` -/
structure Codec where
  σ : Type
  /-- `ZSTD_createDStream` -/
  init : σ
  /-- `ZSTD_decompressStream(zds, output, input)`: from the input not yet taken in and the room in the output, the new state, the number of bytes taken in and the bytes put out.  The return value, which
  tells whether output is waiting inside the decoder, is not used by the code; after an error nothing is taken in or put out. -/
  step : σ → List Nat → Nat → σ × Nat × List Nat

/-- `zstd_reader`, zstdReader.h:12-28.  `buff_out_read_pos` does not appear: the code moves the unread output to the start of the buffer before it decompresses more. -/
structure Z (C : Codec) where
  /-- the contents of `ifile` -/
  file : List Nat
  /-- its file position -/
  pos : Nat
  /-- `buff_in_sz` -/
  inSize : Nat
  /-- `buff_out_sz` -/
  outSize : Nat
  /-- the bytes of `buff_in` from `input.pos` to `input.size` -/
  inp : List Nat
  /-- the bytes of `buff_out` from `buff_out_read_pos` to `output.pos` -/
  out : List Nat
  zds : C.σ

/-- `create_zstd_reader`, zstdReader.c:17-45 -/
def create (C : Codec) (inSize outSize : Nat) (file : List Nat) : Z C := ⟨file, 0, inSize, outSize, [], [], C.init⟩

variable {C : Codec}

/-- `_read_from_file`, zstdReader.c:54-72, called when all input has been taken in -/
def readFile (z : Z C) : Z C :=
  { z with inp := (z.file.drop z.pos).take z.inSize, pos := z.pos + ((z.file.drop z.pos).take z.inSize).length }

/-- `_decompress_from_buff`, zstdReader.c:74-106; `false` is `MY_EOF` -/
def decompress (z : Z C) : Bool × Z C :=
  let y := if z.inp = [] then readFile z else z
  if y.inp = [] then (false, y)
  else
    let r := C.step y.zds y.inp (y.outSize - y.out.length)
    (true, { y with zds := r.1, inp := y.inp.drop r.2.1, out := y.out ++ r.2.2 })

/-- `zstd_reader_read_bytes`, zstdReader.c:169-201: `none` for 0 bytes at the end of the file -/
def readBytes (n : Nat) : Nat → Z C → Res (Option (List Nat) × Z C)
  | 0, _ => .error .diverge
  | fuel + 1, z =>
    if z.out.length < n then
      if (decompress z).1 then readBytes n fuel (decompress z).2 else .ok (none, (decompress z).2)
    else .ok (some (z.out.take n), { z with out := z.out.drop n })

/-- the file position never moves beyond the file, every round that makes progress takes in a byte or puts one out -/
def Z.fuel (z : Z C) (n : Nat) : Nat := z.inp.length + (z.file.length - z.pos) + n + 1

/-- `reader_t` for a compressed trace -/
structure ZReader (C : Codec) where
  fmt : Fmt
  /-- `zstd_reader_p` -/
  z : Z C
  start : Nat
  /-- `mmap_offset`: not moved by reading -/
  off : Nat
  ignoreZero : Bool
  ignoreSize : Bool
  cap : Int
  nRead : Nat
  sampler : Option Sampler
  params : Params

/-- `setup_reader`, reader.c:41-256 -/
def setup (C : Codec) (inSize outSize : Nat) (F : Fmt) (file : List Nat) (p : Params) : Res (ZReader C) :=
  if file.length = 0 then .error .abort
  else .ok ⟨F, create C inSize outSize file, p.start, p.start, p.ignoreZero, p.ignoreSize, p.cap, 0, p.sampler.map Sampler.clone, p⟩

/-- `clone_reader`, reader.c:594-604: the file is opened again -/
def clone (zr : ZReader C) : Res (ZReader C) := setup C zr.z.inSize zr.z.outSize zr.fmt zr.z.file zr.params

/-- the format's `*_read_one_req`, reading forward; `_read_bytes_zstd`, binaryUtils.h:27-39.  `fuel` bounds the number of records skipped. -/
def readRec : Nat → ZReader C → Request → Res (Int × ZReader C × Request)
  | 0, _, _ => .error .diverge
  | fuel + 1, zr, q =>
    readBytes zr.fmt.item (zr.z.fuel zr.fmt.item) zr.z >>= fun r =>
    match r.1 with
    | none => .ok (1, { zr with z := r.2 }, { q with valid := false })
    | some b =>
      zr.fmt.decode b 0 q.vals >>= fun x =>
      if zr.fmt.skip zr.ignoreZero true x then readRec fuel { zr with z := r.2 } { q with vals := x }
      else .ok (0, { zr with z := r.2 }, { q with vals := x })

/-- `read_one_req` up to the sampling, reader.c:265-383; `file_size` is the size of the compressed file -/
def readPre (lim : Nat) (zr : ZReader C) (q : Request) : Res (Bool × Int × ZReader C × Request) :=
  if zr.off ≥ zr.z.file.length then .ok (true, 1, zr, { q with valid := false })
  else if zr.cap > 1 ∧ (zr.nRead : Int) ≥ zr.cap then .ok (true, 1, zr, { q with valid := false })
  else readRec lim { zr with nRead := zr.nRead + 1 } { vals := q.vals.set .ttl (-1), hv := 0, valid := true } >>= fun r => .ok (false, r)

/-- reader.c:401-403 -/
def applyIgnoreSize (zr : ZReader C) (q : Request) : Request :=
  if zr.ignoreSize then { q with vals := q.vals.set .size 1 } else q

/-- `read_one_req` without sampler, reader.c:265-408 -/
def readPlain (lim : Nat) (zr : ZReader C) (q : Request) : Res (Int × ZReader C × Request) :=
  readPre lim zr q >>= fun r => if r.1 then .ok r.2 else .ok (r.2.1, r.2.2.1, applyIgnoreSize r.2.2.1 r.2.2.2)

/-- the sampling loop, reader.c:385-400, reading forward -/
def sampleLoop (hash : Nat → Nat) (lim : Nat) : Nat → Sampler → ZReader C → Int → Request → Res (Bool × Int × Sampler × ZReader C × Request)
  | 0, _, _, _, _ => .error .diverge
  | fuel + 1, s, zr, status, q =>
    s.sample hash q >>= fun r =>
    if r.1 then .ok (false, status, r.2.1, zr, r.2.2)
    else
      readPlain lim zr r.2.2 >>= fun p =>
      if p.1 ≠ 0 then .ok (true, p.1, r.2.1, p.2.1, p.2.2)
      else sampleLoop hash lim fuel r.2.1 p.2.1 p.1 p.2.2

/-- `read_one_req`, reader.c:265-408.  `lim` only makes the function total: the number of records that may be skipped in one call. -/
def readOne (hash : Nat → Nat) (lim : Nat) (zr : ZReader C) (q : Request) : Res (Int × ZReader C × Request) :=
  match zr.sampler with
  | none => readPlain lim zr q
  | some s =>
    readPre lim zr q >>= fun r =>
    if r.1 then .ok r.2
    else
      sampleLoop hash lim lim s { r.2.2.1 with sampler := none } r.2.1 r.2.2.2 >>= fun t =>
      if t.1 then .ok (t.2.1, { t.2.2.2.1 with sampler := some t.2.2.1 }, t.2.2.2.2)
      else .ok (t.2.1, { t.2.2.2.1 with sampler := some t.2.2.1 }, applyIgnoreSize t.2.2.2.1 t.2.2.2.2)

/-- read until a read fails: the usual loop of a client -/
def readAll (hash : Nat → Nat) (lim : Nat) : Nat → ZReader C → Request → Res (List Request × ZReader C)
  | 0, _, _ => .error .diverge
  | fuel + 1, zr, q =>
    readOne hash lim zr q >>= fun r =>
    if r.1 ≠ 0 then .ok ([], r.2.1)
    else readAll hash lim fuel r.2.1 r.2.2 >>= fun t => .ok (r.2.2 :: t.1, t.2)

/-- `get_num_of_req`, reader.c:574-592: a clone is read to the end -/
def numReq (hash : Nat → Nat) (lim : Nat) (zr : ZReader C) : Res Nat :=
  clone zr >>= fun c => readAll hash lim lim { c with off := 0 } newRequest >>= fun t => .ok t.1.length

/-- `reset_reader`, reader.c:550-572: only the file is rewound -/
def reset (zr : ZReader C) : ZReader C := { zr with off := zr.start, nRead := 0, z := { zr.z with pos := 0 } }

/-- `skip_n_req`, reader.c:520-548 -/
def skipN (zr : ZReader C) (n : Nat) : Nat × ZReader C :=
  if zr.off + n * zr.fmt.item ≤ zr.z.file.length then (n, { zr with off := zr.off + n * zr.fmt.item })
  else ((zr.z.file.length - zr.off) / zr.fmt.item, { zr with off := zr.z.file.length })

/-- `go_back_one_req`, reader.c:417-475 -/
def goBackOne (zr : ZReader C) : Int × ZReader C :=
  if zr.off ≥ zr.start + zr.fmt.item then (0, { zr with off := zr.off - zr.fmt.item }) else (1, zr)

/-- `read_last_req`, reader.c:700-708, with `reader_set_read_pos`, reader.c:667-691 -/
def readLast (hash : Nat → Nat) (lim : Nat) (zr : ZReader C) (q : Request) : Res (ZReader C × Request) :=
  readOne hash lim (goBackOne { reset zr with off := zr.z.file.length - zr.z.file.length % zr.fmt.item }).2 q >>= fun r => .ok ({ r.2.1 with off := zr.off }, r.2.2)

end Verif.Reader.Zstd
