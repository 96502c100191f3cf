import Verif.Reader.Bytes
/-!
# The binary trace formats

Every `*_read_one_req` of libCacheSim/traceReader/customizedReader assigns members of `request_t` from fixed offsets of the
record and then possibly adjusts them; a format is the table of these assignments.
-/

namespace Verif.Reader
open Verif

/-- the members of `request_t` (libCacheSim/include/libCacheSim/request.h:21-65) that readers assign -/
inductive Fld where
  | time | id | size | ttl | op | next | keySize | valSize | ns | content | tenant | bucket | age | host
  | ext | colo | nLevel | nParam | method
  /-- local variables `kv_size`, `op_ttl` of the twr readers (twrBin.h:45-46) and `ts` of vscsi -/
  | kv | opTtl | ts
deriving DecidableEq, Repr

/-- reduction modulo 2^n into the signed range -/
def sWrap (bits : Nat) (v : Int) : Int := (v + 2 ^ (bits - 1)) % 2 ^ bits - 2 ^ (bits - 1)

/-- conversion of an assigned value to the type of the member, request.h:22-52 -/
def store : Fld → Int → Int
  | .time, v => sWrap 64 v
  | .id, v => v % 2 ^ 64
  | .size, v => sWrap 64 v
  | .ttl, v => sWrap 32 v
  | .op, v => v % 2 ^ 32
  | .next, v => sWrap 64 v
  | .keySize, v => v % 2 ^ 16
  | .valSize, v => v % 2 ^ 48
  | .ns, v => sWrap 32 v
  | .content, v => sWrap 32 v
  | .tenant, v => sWrap 32 v
  | .bucket, v => sWrap 32 v
  | .age, v => sWrap 32 v
  | .host, v => sWrap 32 v
  | .ext, v => sWrap 16 v
  | .colo, v => sWrap 16 v
  | .nLevel, v => sWrap 16 v
  | .nParam, v => sWrap 16 v
  | .method, v => sWrap 8 v
  | .kv, v => v % 2 ^ 32
  | .opTtl, v => v % 2 ^ 32
  | .ts, v => v % 2 ^ 64

/-- the values of the members -/
abbrev Vals := Fld → Int

/-- `req->f = v` -/
def Vals.set (x : Vals) (f : Fld) (v : Int) : Vals := fun g => if g = f then v else x g

/-- one assignment `req->fld = *(type *)(record + off)` -/
structure Load where
  fld : Fld
  off : Nat
  width : Nat
  signed : Bool
deriving DecidableEq, Repr

/-- a binary format -/
structure Fmt where
  /-- `reader->item_size` -/
  item : Nat
  /-- the loads, in program order -/
  loads : List Load
  /-- the statements after the loads -/
  post : Vals → Vals
  /-- the condition of the recursive call that skips zero-size requests, given `ignore_size_zero_req` and
  `read_direction == READ_FORWARD` -/
  skip : Bool → Bool → Vals → Bool

/-- execute the loads of a record starting at `off` -/
def loadAll (bs : List Nat) (off : Nat) : List Load → Vals → Res Vals
  | [], x => .ok x
  | l :: ls, x => leI bs (off + l.off) l.width l.signed >>= fun v => loadAll bs off ls (x.set l.fld (store l.fld v))

def Fmt.decode (F : Fmt) (bs : List Nat) (off : Nat) (x : Vals) : Res Vals :=
  loadAll bs off F.loads x >>= fun y => .ok (F.post y)

/-- `if (next == -1 || next == INT64_MAX) next = MAX_REUSE_DISTANCE` (both constants are INT64_MAX, const.h:61) -/
def fixNext (x : Vals) : Vals :=
  if x .next = -1 ∨ x .next = 9223372036854775807 then x.set .next 9223372036854775807 else x

/-- `obj_size == 0 && ignore_size_zero_req && READ_FORWARD` -/
def skipSizeZero (iz fwd : Bool) (x : Vals) : Bool := decide (x .size = 0) && iz && fwd

/-- `OP_GET`, `OP_GETS`: libCacheSim/include/libCacheSim/enum.h:111-112 -/
def opGet : Int := 1
def opGets : Int := 2

/-- `val_size == 0 && ignore_size_zero_req && (op == OP_GET || op == OP_GETS) && READ_FORWARD` -/
def skipValZero (iz fwd : Bool) (x : Vals) : Bool :=
  decide (x .valSize = 0) && iz && (decide (x .op = opGet) || decide (x .op = opGets)) && fwd

def noSkip (_ _ : Bool) (_ : Vals) : Bool := false

/-- oracleGeneralBin.h:21-50 -/
def oracleGeneral : Fmt := ⟨24, [⟨.time, 0, 4, false⟩, ⟨.id, 4, 8, false⟩, ⟨.size, 12, 4, false⟩, ⟨.next, 16, 8, true⟩], fixNext, skipSizeZero⟩

/-- oracleGeneralBin.h:52-83 (here only -1 is replaced; the other replacement would not change the value) -/
def oracleGeneralOpNS : Fmt := ⟨27, [⟨.time, 0, 4, false⟩, ⟨.id, 4, 8, false⟩, ⟨.size, 12, 4, false⟩, ⟨.op, 16, 1, false⟩,
  ⟨.ns, 17, 2, false⟩, ⟨.next, 19, 8, true⟩],
  fun x => if x .next = -1 then x.set .next 9223372036854775807 else x, skipSizeZero⟩

/-- standardBin.h:54-77 -/
def standardIQI : Fmt := ⟨16, [⟨.time, 0, 4, false⟩, ⟨.id, 4, 8, false⟩, ⟨.size, 12, 4, false⟩], fun x => x, noSkip⟩

/-- standardBin.h:29-52: `standardBinIQQ_setup` sets `trace_type = STANDARD_IQI_TRACE`, so requests are read by
`standardBinIQI_read_one_req`, which has the same loads as `standardBinIQQ_read_one_req` -/
def standardIQQ : Fmt := ⟨20, [⟨.time, 0, 4, false⟩, ⟨.id, 4, 8, false⟩, ⟨.size, 12, 4, false⟩], fun x => x, noSkip⟩

/-- standardBin.h:79-102: `obj_id` is read as 8 bytes -/
def standardIII : Fmt := ⟨12, [⟨.time, 0, 4, false⟩, ⟨.id, 4, 8, false⟩, ⟨.size, 8, 4, false⟩], fun x => x, noSkip⟩

/-- standardBin.h:104-131 -/
def standardIQIBH : Fmt := ⟨19, [⟨.time, 0, 4, false⟩, ⟨.id, 4, 8, false⟩, ⟨.size, 12, 4, false⟩, ⟨.op, 16, 1, false⟩, ⟨.ns, 17, 2, false⟩],
  fun x => x, noSkip⟩

/-- akamaiBin.h:28-83 -/
def akamai : Fmt := ⟨22, [⟨.time, 0, 4, false⟩, ⟨.id, 4, 8, false⟩, ⟨.size, 12, 4, false⟩, ⟨.tenant, 16, 2, false⟩,
  ⟨.bucket, 18, 2, false⟩, ⟨.content, 20, 2, false⟩], fun x => x, skipSizeZero⟩

/-- cf1Bin.h:32-70 -/
def cf1 : Fmt := ⟨41, [⟨.time, 0, 4, false⟩, ⟨.id, 4, 8, false⟩, ⟨.size, 12, 8, false⟩, ⟨.ttl, 20, 4, true⟩, ⟨.age, 24, 4, false⟩,
  ⟨.host, 28, 4, false⟩, ⟨.content, 32, 2, false⟩, ⟨.ext, 34, 2, false⟩, ⟨.nLevel, 36, 2, false⟩, ⟨.nParam, 38, 1, false⟩,
  ⟨.method, 39, 1, false⟩, ⟨.colo, 40, 1, false⟩], fun x => x, skipSizeZero⟩

/-- the bit fields of the twr formats, twrBin.h:48-58: key size in the top 10 bits, value size in the low 22; operation in the
top 8, ttl in the low 24 -/
def twrPost (x : Vals) : Vals :=
  let key := x .kv / 4194304 % 1024
  let val := x .kv % 4194304
  let x := x.set .keySize key
  let x := x.set .valSize val
  let x := x.set .size (key + val)
  let x := x.set .op (x .opTtl / 16777216 % 256)
  x.set .ttl (x .opTtl % 16777216)

/-- twrBin.h:26-71 -/
def twr : Fmt := ⟨20, [⟨.time, 0, 4, false⟩, ⟨.id, 4, 8, false⟩, ⟨.kv, 12, 4, false⟩, ⟨.opTtl, 16, 4, false⟩], twrPost, skipValZero⟩

/-- twrNSBin.h:27-72 -/
def twrNS : Fmt := ⟨22, [⟨.time, 0, 4, false⟩, ⟨.id, 4, 8, false⟩, ⟨.kv, 12, 4, false⟩, ⟨.opTtl, 16, 4, false⟩, ⟨.ns, 20, 2, false⟩],
  twrPost, skipValZero⟩

/-- wikiBin.h:36-66: zero sizes are skipped in both directions -/
def wiki2016u : Fmt := ⟨14, [⟨.id, 0, 8, false⟩, ⟨.size, 8, 4, false⟩, ⟨.content, 12, 2, false⟩], fun x => x.set .time 0,
  fun iz _ x => decide (x .size = 0) && iz⟩

/-- wikiBin.h:68-97: zero sizes are skipped in both directions -/
def wiki2019u : Fmt := ⟨18, [⟨.time, 0, 4, false⟩, ⟨.id, 4, 8, false⟩, ⟨.size, 12, 4, false⟩, ⟨.content, 16, 2, false⟩], fun x => x,
  fun iz _ x => decide (x .size = 0) && iz⟩

/-- wikiBin.h:99-127 -/
def wiki2019t : Fmt := ⟨16, [⟨.time, 0, 4, false⟩, ⟨.id, 4, 8, false⟩, ⟨.size, 12, 4, false⟩], fun x => x, skipSizeZero⟩

/-- oracleAkamaiBin.h:21-58 -/
def oracleAkamai : Fmt := ⟨30, [⟨.time, 0, 4, false⟩, ⟨.id, 4, 8, false⟩, ⟨.size, 12, 4, false⟩, ⟨.tenant, 16, 2, true⟩,
  ⟨.bucket, 18, 2, true⟩, ⟨.content, 20, 2, true⟩, ⟨.next, 22, 8, true⟩],
  fun x => fixNext (((x.set .tenant (x .tenant - 1)).set .bucket (x .bucket - 1)).set .content (x .content - 1)), skipSizeZero⟩

/-- oracleCF1Bin.h:31-78.  The size correction compares the signed `obj_size` with unsigned constants; sizes with the high 32
bits set lose them. -/
def cf1FixSize (x : Vals) : Vals :=
  let u := x .size % 2 ^ 64
  if u > 18446744069414584320 then x.set .size (sWrap 64 (u - 18446744069414584320)) else x

def oracleCF1 : Fmt := ⟨49, [⟨.time, 0, 4, false⟩, ⟨.id, 4, 8, false⟩, ⟨.size, 12, 8, false⟩, ⟨.ttl, 20, 4, true⟩, ⟨.age, 24, 4, false⟩,
  ⟨.host, 28, 4, false⟩, ⟨.next, 32, 8, true⟩, ⟨.content, 40, 2, false⟩, ⟨.ext, 42, 2, false⟩, ⟨.nLevel, 44, 2, false⟩,
  ⟨.nParam, 46, 1, false⟩, ⟨.method, 47, 1, false⟩, ⟨.colo, 48, 1, false⟩], fun x => fixNext (cf1FixSize x), skipSizeZero⟩

/-- oracleTwrNSBin.h:36-74: the skip condition looks at `val_size` and `op`, which this reader never assigns -/
def oracleSimTwrNS : Fmt := ⟨30, [⟨.time, 0, 4, false⟩, ⟨.id, 4, 8, false⟩, ⟨.size, 12, 4, false⟩, ⟨.ttl, 16, 4, true⟩,
  ⟨.ns, 20, 2, false⟩, ⟨.next, 22, 8, true⟩], fixNext, skipValZero⟩

/-- oracleTwrNSBin.h:76-121 -/
def oracleSysTwrNS : Fmt := ⟨34, [⟨.time, 0, 4, false⟩, ⟨.id, 4, 8, false⟩, ⟨.keySize, 12, 2, false⟩, ⟨.valSize, 14, 4, false⟩,
  ⟨.op, 18, 2, false⟩, ⟨.ns, 20, 2, false⟩, ⟨.ttl, 22, 4, true⟩, ⟨.next, 26, 8, true⟩],
  fun x => fixNext (x.set .size (x .keySize + x .valSize)), skipValZero⟩

/-- oracleWikiBin.h:39-74 -/
def oracleWiki2016u : Fmt := ⟨22, [⟨.id, 0, 8, false⟩, ⟨.size, 8, 4, false⟩, ⟨.content, 12, 2, false⟩, ⟨.next, 14, 8, true⟩],
  fun x => fixNext (x.set .time 0), skipSizeZero⟩

/-- oracleWikiBin.h:76-110 -/
def oracleWiki2019u : Fmt := ⟨26, [⟨.time, 0, 4, false⟩, ⟨.id, 4, 8, false⟩, ⟨.size, 12, 4, false⟩, ⟨.content, 16, 2, false⟩,
  ⟨.next, 18, 8, true⟩], fixNext, skipSizeZero⟩

/-- valpinBin.h:9-32 -/
def valpin : Fmt := ⟨8, [⟨.id, 0, 8, false⟩], fun x => x.set .size 1, noSkip⟩

/-- vscsi.h:124-135: version 1, `struct {u32 sn, len, nSG; u16 cmd, ver; u64 lbn, ts}` without padding -/
def vscsi1 : Fmt := ⟨32, [⟨.ts, 24, 8, false⟩, ⟨.size, 4, 4, false⟩, ⟨.id, 16, 8, false⟩],
  fun x => x.set .time (x .ts / 1000000), noSkip⟩

/-- vscsi.h:137-145: version 2, `struct {u16 cmd, ver; u32 sn, len, nSG; u64 lbn, ts, rt}` without padding -/
def vscsi2 : Fmt := ⟨40, [⟨.ts, 24, 8, false⟩, ⟨.size, 8, 4, false⟩, ⟨.id, 16, 8, false⟩],
  fun x => x.set .time (x .ts / 1000000), noSkip⟩

/-! ## the format-string reader, generalReader/binary.c -/

/-- `format_to_size`, readerInternal.h:55-76; an unknown letter is an error -/
def letterSize : Char → Option Nat
  | 'c' => some 1 | 'b' => some 1 | 'B' => some 1
  | 'h' => some 2 | 'H' => some 2
  | 'i' => some 4 | 'I' => some 4 | 'l' => some 4 | 'L' => some 4 | 'f' => some 4
  | 'q' => some 8 | 'Q' => some 8 | 'd' => some 8
  | _ => none

/-- `cal_offset`, binary.c:26-32: the sum of the sizes of the first `n` letters -/
def calOffset : List Char → Nat → Option Nat
  | _, 0 => some 0
  | [], _ + 1 => none
  | c :: cs, n + 1 => match letterSize c, calOffset cs n with
    | some a, some b => some (a + b)
    | _, _ => none

/-- one field of `binaryReader_setup` (binary.c:60-112) together with the `read_data` of its letter (binary.c:183-210): every
integer letter, signed or unsigned, is read through a signed type.  Field indices start at 1; `f` and `d` are not modelled. -/
def binLoad (fmt : List Char) (fld : Fld) (idx : Nat) : Option Load :=
  match fmt[idx - 1]?, calOffset fmt (idx - 1) with
  | some c, some off => if c = 'f' ∨ c = 'd' then none else
    match letterSize c with
    | some w => some ⟨fld, off, w, true⟩
    | none => none
  | _, _ => none

/-- the loads of the fields that are present (index > 0), in the order of `binary_read_one_req` (binary.c:212-252); `ttl` is
only read when compiled with ENABLE_TTL, which nothing defines -/
def binLoads (fmt : List Char) : List (Fld × Nat) → Option (List Load)
  | [] => some []
  | (f, i) :: rest =>
    if i = 0 then binLoads fmt rest
    else match binLoad fmt f i, binLoads fmt rest with
      | some l, some ls => some (l :: ls)
      | _, _ => none

/-- `binaryReader_setup` for a format string (after the '<') and the field indices of the object id, time, size, operation and
next access -/
def binFmt (fmt : List Char) (idF timeF sizeF opF nextF : Nat) : Option Fmt :=
  if idF = 0 then none else
  match binLoads fmt [(.id, idF), (.time, timeF), (.size, sizeF), (.op, opF), (.next, nextF)], calOffset fmt fmt.length with
  | some ls, some n => if n = 0 then none else some ⟨n, ls, fun x => x, noSkip⟩
  | _, _ => none

end Verif.Reader
