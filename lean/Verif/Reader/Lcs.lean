import Verif.Reader.Reader
/-!
# libCacheSim/traceReader/generalReader/lcs.c: traces with a header of 1024 bytes that describes the records
-/

namespace Verif.Reader.Lcs
open Verif Verif.Reader

/-- `LCS_TRACE_START_MAGIC` and `LCS_TRACE_END_MAGIC`, lcs.h:11-12 -/
def magic : Nat := 0x123456789abcdef0

/-- the members of `lcs_trace_header_t` (lcs.h:15-56) that are used -/
structure Header where
  /-- `start_magic` -/
  start : Nat
  /-- the string `format`, without the NUL -/
  format : List Char
  idF : Nat
  sizeF : Nat
  timeF : Nat
  nextF : Nat
  opF : Nat
  nFields : Nat
  itemSize : Nat
  /-- `end_magic` -/
  stop : Nat

/-- the C string at offset `o`; a string without NUL runs out of the file -/
def cString (bs : List Nat) (o : Nat) : Res (List Nat) :=
  if 0 ∈ bs.drop o then .ok ((bs.drop o).takeWhile (fun b => b ≠ 0)) else .error .outOfBounds

/-- `(lcs_trace_header_t *)data`: the offsets of the members in lcs.h:15-56; every member is at its natural alignment, there is no padding, and the whole takes 1024 bytes -/
def readHeader (bs : List Nat) (o : Nat) : Res Header :=
  leU bs o 8 >>= fun m => cString bs (o + 8) >>= fun f => leU bs (o + 248) 1 >>= fun i => leU bs (o + 249) 1 >>= fun z => leU bs (o + 250) 1 >>= fun t =>
  leU bs (o + 252) 1 >>= fun n => leU bs (o + 253) 1 >>= fun p => leU bs (o + 1000) 4 >>= fun k => leU bs (o + 1004) 4 >>= fun c => leU bs (o + 1016) 8 >>= fun e =>
  .ok ⟨m, f.map Char.ofNat, i, z, t, n, p, k, c, e⟩

/-- `verify_LCS_trace_header`, lcs.c:22-61; `ERROR` aborts.  The length of the format minus one is computed in `size_t`: for an empty format it is 2^64 - 1. -/
def verify (h : Header) : Res Unit :=
  if h.start ≠ magic then .error .abort
  else if h.stop ≠ magic then .error .abort
  else if h.format = [] ∨ h.nFields ≠ h.format.length - 1 then .error .abort
  else if h.idF > h.nFields then .error .abort
  else if calOffset (h.format.drop 1) h.nFields ≠ some h.itemSize then .error .abort
  else .ok ()

/-- `LCSReader_setup`, lcs.c:63-95, in `setup_reader` (reader.c:217-219): the header is read with `read_bytes` (binaryUtils.h:14-23) from where the trace starts; `binaryReader_setup` then sees the
fields and the format from the header.  Where `binFmt` is undefined (object id field 0, a field beyond the format, letters that are no integers) the code aborts or reads outside the
format string, or reads floating point numbers; the model stops with a fault.  The trace type is now the binary one, so `clone_reader` does not read the header again. -/
def setup (bytes : List Nat) (p : Params) : Res Reader :=
  if bytes.length = 0 then .error .abort
  else if p.start ≥ bytes.length then .error .nullDeref
  else
    readHeader bytes p.start >>= fun h => verify h >>= fun _ =>
    if h.format.head? ≠ some '<' then .error .abort
    else match binFmt (h.format.drop 1) h.idF h.timeF h.sizeF h.opF h.nextF with
      | none => .error .abort
      | some F =>
        if F.item ≠ h.itemSize then .error .abort
        else .ok ⟨F, bytes, 1024, p.start + 1024, p.ignoreZero, p.ignoreSize, p.cap, 0, true, p.sampler.map Sampler.clone, { p with start := 1024 }⟩

end Verif.Reader.Lcs
