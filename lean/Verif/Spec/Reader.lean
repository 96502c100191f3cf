import Verif.Reader.Reader
/-!
# What a trace file contains and what reading it should deliver
-/

namespace Verif.Spec.Reader
open Verif.Reader

/-- a member of the documented record `struct` -/
structure Field where
  name : Fld
  width : Nat
  signed : Bool
deriving DecidableEq, Repr

/-- a packed `struct`, little endian -/
abbrev Layout := List Field

/-- the `k` bytes of a number, least significant first -/
def leBytes : Nat → Nat → List Nat
  | 0, _ => []
  | k + 1, v => v % 256 :: leBytes k (v / 256)

/-- the bytes of one member -/
def fieldBytes (f : Field) (v : Int) : List Nat := leBytes f.width (v % 256 ^ f.width).toNat

/-- the bytes of one record -/
def encode (L : Layout) (v : Fld → Int) : List Nat := L.flatMap (fun f => fieldBytes f (v f.name))

/-- the file -/
def encodeAll (L : Layout) (vs : List (Fld → Int)) : List Nat := vs.flatMap (encode L)

/-- the value is representable in the member's type -/
def fits (f : Field) (v : Int) : Prop :=
  if f.signed then -(256 ^ f.width / 2) ≤ v ∧ v < 256 ^ f.width / 2 else 0 ≤ v ∧ v < 256 ^ f.width

def Fits (L : Layout) (v : Fld → Int) : Prop := ∀ f ∈ L, fits f (v f.name)

def size (L : Layout) : Nat := (L.map (·.width)).sum

/-- reading stops after `cap` requests if `cap > 1`, `done` of which have been read -/
def capped {α : Type} (cap : Int) (done : Nat) (l : List α) : List α := if cap > 1 then l.take (cap - done).toNat else l

/-- what a sampler lets through -/
def sampled {α : Type} (hash : Nat → Nat) (idOf : α → Nat) : Option Sampler → List α → List α
  | none, l => l
  | some (.spatial inv), l => l.filter (fun a => hash (idOf a) % inv = 0)
  | some (.temporal _ _), [] => []
  | some (.temporal inv n), a :: l =>
    if n + 1 = inv then a :: sampled hash idOf (some (.temporal inv 0)) l
    else sampled hash idOf (some (.temporal inv (n + 1))) l

end Verif.Spec.Reader

namespace Verif.Spec.Reader
open Verif Verif.Reader

/-! ## the documented record layouts -/


/-- oracleGeneralBin.h:6-16 -/
def lOracleGeneral : Layout := [⟨.time, 4, false⟩, ⟨.id, 8, false⟩, ⟨.size, 4, false⟩, ⟨.next, 8, true⟩]
/-- the same with one byte operation and two bytes namespace before `next` -/
def lOracleGeneralOpNS : Layout :=
  [⟨.time, 4, false⟩, ⟨.id, 8, false⟩, ⟨.size, 4, false⟩, ⟨.op, 1, false⟩, ⟨.ns, 2, false⟩, ⟨.next, 8, true⟩]
/-- standardBin.h:8-13 -/
def lIQI : Layout := [⟨.time, 4, false⟩, ⟨.id, 8, false⟩, ⟨.size, 4, false⟩]
/-- format letters I, Q, Q -/
def lIQQ : Layout := [⟨.time, 4, false⟩, ⟨.id, 8, false⟩, ⟨.size, 8, false⟩]
/-- standardBin.h:16-21 -/
def lIII : Layout := [⟨.time, 4, false⟩, ⟨.id, 4, false⟩, ⟨.size, 4, false⟩]
/-- format letters I, Q, I, B, H -/
def lIQIBH : Layout := [⟨.time, 4, false⟩, ⟨.id, 8, false⟩, ⟨.size, 4, false⟩, ⟨.op, 1, false⟩, ⟨.ns, 2, false⟩]
/-- akamaiBin.h:6-16 -/
def lAkamai : Layout := [⟨.time, 4, false⟩, ⟨.id, 8, false⟩, ⟨.size, 4, false⟩, ⟨.tenant, 2, false⟩, ⟨.bucket, 2, false⟩, ⟨.content, 2, false⟩]
/-- cf1Bin.h:2-22 -/
def lCf1 : Layout := [⟨.time, 4, false⟩, ⟨.id, 8, false⟩, ⟨.size, 8, false⟩, ⟨.ttl, 4, true⟩, ⟨.age, 4, false⟩, ⟨.host, 4, false⟩,
  ⟨.content, 2, false⟩, ⟨.ext, 2, false⟩, ⟨.nLevel, 2, false⟩, ⟨.nParam, 1, false⟩, ⟨.method, 1, false⟩, ⟨.colo, 1, false⟩]
/-- twrBin.h:2-14, the two 32-bit words of bit fields -/
def lTwr : Layout := [⟨.time, 4, false⟩, ⟨.id, 8, false⟩, ⟨.kv, 4, false⟩, ⟨.opTtl, 4, false⟩]
/-- twrNSBin.h:2-15 -/
def lTwrNS : Layout := [⟨.time, 4, false⟩, ⟨.id, 8, false⟩, ⟨.kv, 4, false⟩, ⟨.opTtl, 4, false⟩, ⟨.ns, 2, false⟩]
/-- wikiBin.h:7-12 -/
def lWiki16u : Layout := [⟨.id, 8, false⟩, ⟨.size, 4, false⟩, ⟨.content, 2, false⟩]
/-- wikiBin.h:15-21 -/
def lWiki19u : Layout := [⟨.time, 4, false⟩, ⟨.id, 8, false⟩, ⟨.size, 4, false⟩, ⟨.content, 2, false⟩]
/-- oracleAkamaiBin.h:6-16 -/
def lOracleAkamai : Layout := [⟨.time, 4, false⟩, ⟨.id, 8, false⟩, ⟨.size, 4, false⟩, ⟨.tenant, 2, true⟩, ⟨.bucket, 2, true⟩,
  ⟨.content, 2, true⟩, ⟨.next, 8, true⟩]
/-- oracleCF1Bin.h:2-22 -/
def lOracleCF1 : Layout := [⟨.time, 4, false⟩, ⟨.id, 8, false⟩, ⟨.size, 8, false⟩, ⟨.ttl, 4, true⟩, ⟨.age, 4, false⟩, ⟨.host, 4, false⟩,
  ⟨.next, 8, true⟩, ⟨.content, 2, false⟩, ⟨.ext, 2, false⟩, ⟨.nLevel, 2, false⟩, ⟨.nParam, 1, false⟩, ⟨.method, 1, false⟩, ⟨.colo, 1, false⟩]
/-- oracleTwrNSBin.h:2-10 -/
def lOracleSimTwrNS : Layout := [⟨.time, 4, false⟩, ⟨.id, 8, false⟩, ⟨.size, 4, false⟩, ⟨.ttl, 4, true⟩, ⟨.ns, 2, false⟩, ⟨.next, 8, true⟩]
/-- oracleTwrNSBin.h:14-24 -/
def lOracleSysTwrNS : Layout := [⟨.time, 4, false⟩, ⟨.id, 8, false⟩, ⟨.keySize, 2, false⟩, ⟨.valSize, 4, false⟩, ⟨.op, 2, false⟩,
  ⟨.ns, 2, false⟩, ⟨.ttl, 4, true⟩, ⟨.next, 8, true⟩]
/-- oracleWikiBin.h:7-13 -/
def lOracleWiki16u : Layout := [⟨.id, 8, false⟩, ⟨.size, 4, false⟩, ⟨.content, 2, false⟩, ⟨.next, 8, true⟩]
/-- oracleWikiBin.h:16-23 -/
def lOracleWiki19u : Layout := [⟨.time, 4, false⟩, ⟨.id, 8, false⟩, ⟨.size, 4, false⟩, ⟨.content, 2, false⟩, ⟨.next, 8, true⟩]
/-- one 8-byte id -/
def lValpin : Layout := [⟨.id, 8, false⟩]
/-- `trace_v1_record_t`, vscsi.h:28-36; members not used are written with other names: sn, nSG, cmd and ver -/
def lVscsi1 : Layout := [⟨.kv, 4, false⟩, ⟨.size, 4, false⟩, ⟨.opTtl, 4, false⟩, ⟨.op, 2, false⟩, ⟨.ns, 2, false⟩, ⟨.id, 8, false⟩, ⟨.ts, 8, false⟩]
/-- `trace_v2_record_t`, vscsi.h:38-47: cmd, ver, sn, len, nSG, lbn, ts, rt -/
def lVscsi2 : Layout := [⟨.op, 2, false⟩, ⟨.ns, 2, false⟩, ⟨.kv, 4, false⟩, ⟨.size, 4, false⟩, ⟨.opTtl, 4, false⟩, ⟨.id, 8, false⟩,
  ⟨.ts, 8, false⟩, ⟨.age, 8, false⟩]

/-! ## what reading must deliver -/

/-- object sizes are replaced by 1 on request -/
def shownSize (ignoreSize : Bool) (v : Fld → Int) : Fld → Int := if ignoreSize then Vals.set v .size 1 else v

/-- the requests a reader must deliver for the records `vs` -/
def expected (hash : Nat → Nat) (mean : (Fld → Int) → Vals) (zero : Vals → Bool) (p : Params) (vs : List (Fld → Int)) : List Vals :=
  (sampled hash (fun v => (v .id).toNat) (p.sampler.map Sampler.clone)
    (capped p.cap 0 ((vs.map mean).filter (fun v => !(p.ignoreZero && zero v))))).map (shownSize p.ignoreSize)

/-- a usable sampling ratio -/
def RatioOk : Option Sampler → Prop
  | some (.spatial inv) => 0 < inv
  | _ => True

/-- Format `F` reads files of records laid out as `L`: for every non-empty list of representable records satisfying `ok`, any
hash function and any reader options, opening the file written from them and reading to the end yields requests whose members
`obs` are those `mean` prescribes; records for which `zero` holds are left out if the reader ignores them; at most `cap`; sampled. -/
def Delivers (F : Fmt) (L : Layout) (obs : List Fld) (ok : (Fld → Int) → Prop) (mean : (Fld → Int) → Vals) (zero : Vals → Bool) : Prop :=
  ∀ (vs : List (Fld → Int)), (∀ v ∈ vs, Fits L v ∧ ok v) → vs ≠ [] → ∀ (hash : Nat → Nat) (p : Params), p.start = 0 → RatioOk p.sampler →
    ∃ rd qs rd', setup F (encodeAll L vs) p = .ok rd ∧ readAll hash (rd.bytes.length + 1) rd newRequest = .ok (qs, rd') ∧
      (∀ q ∈ qs, q.valid = true) ∧
      qs.map (fun q => obs.map q.vals) = (expected hash mean zero p vs).map (fun v => obs.map v)

/-- "never again" is written -1 or INT64_MAX and delivered as INT64_MAX -/
def nextOf (v : Int) : Int := if v = -1 then 9223372036854775807 else v

end Verif.Spec.Reader

namespace Verif.Spec.Reader
open Verif Verif.Reader

/-- requests for objects of size zero, which a reader may be asked to leave out -/
def zeroSize (v : Vals) : Bool := decide (v .size = 0)
/-- get requests without a value (key-value traces), which a reader may be asked to leave out -/
def zeroGet (v : Vals) : Bool := decide (v .valSize = 0) && (decide (v .op = 1) || decide (v .op = 2))
/-- formats whose reader leaves nothing out -/
def never (_ : Vals) : Bool := false

end Verif.Spec.Reader

namespace Verif.Spec.Reader
open Verif Verif.Reader

/-- a binary format with what its documentation says about it: the layout, the members of the request it determines, the records
that can be represented, what the members should be, the requests the reader may leave out, and whether it leaves them out also when
reading backwards -/
structure TraceFormat where
  F : Fmt
  L : Layout
  obs : List Fld
  ok : (Fld → Int) → Prop
  mean : (Fld → Int) → Vals
  zero : Vals → Bool
  both : Bool

/-- the supported formats (for `standardIQQ` with sizes below 2^32; `standardIII` and `oracleSimTwrNS` are treated separately) -/
def formats : List TraceFormat := [
  ⟨oracleGeneral, lOracleGeneral, [.time, .id, .size, .next], fun _ => True,
    fun v => Vals.set v .next (nextOf (v .next)), zeroSize, false⟩,
  ⟨oracleGeneralOpNS, lOracleGeneralOpNS, [.time, .id, .size, .op, .ns, .next], fun _ => True,
    fun v => Vals.set v .next (nextOf (v .next)), zeroSize, false⟩,
  ⟨standardIQI, lIQI, [.time, .id, .size], fun _ => True,
    fun v => v, never, false⟩,
  ⟨standardIQQ, lIQQ, [.time, .id, .size], fun v => v .size < 4294967296,
    fun v => v, never, false⟩,
  ⟨standardIQIBH, lIQIBH, [.time, .id, .size, .op, .ns], fun _ => True,
    fun v => v, never, false⟩,
  ⟨akamai, lAkamai, [.time, .id, .size, .tenant, .bucket, .content], fun _ => True,
    fun v => v, zeroSize, false⟩,
  ⟨cf1, lCf1, [.time, .id, .size, .ttl, .age, .host, .content, .ext, .nLevel, .nParam, .method, .colo], fun v => v .size < 9223372036854775808 ∧ v .age < 2147483648 ∧ v .host < 2147483648 ∧ v .ext < 32768 ∧ v .nLevel < 32768 ∧ v .method < 128,
    fun v => v, zeroSize, false⟩,
  ⟨twr, lTwr, [.time, .id, .size, .keySize, .valSize, .op, .ttl], fun v => (0 ≤ v .keySize ∧ v .keySize < 1024 ∧ 0 ≤ v .valSize ∧ v .valSize < 4194304 ∧ v .kv = v .keySize * 4194304 + v .valSize) ∧ 0 ≤ v .op ∧ v .op < 256 ∧ 0 ≤ v .ttl ∧ v .ttl < 16777216 ∧ v .opTtl = v .op * 16777216 + v .ttl,
    fun v => Vals.set v .size (v .keySize + v .valSize), zeroGet, false⟩,
  ⟨twrNS, lTwrNS, [.time, .id, .size, .keySize, .valSize, .op, .ttl, .ns], fun v => (0 ≤ v .keySize ∧ v .keySize < 1024 ∧ 0 ≤ v .valSize ∧ v .valSize < 4194304 ∧ v .kv = v .keySize * 4194304 + v .valSize) ∧ 0 ≤ v .op ∧ v .op < 256 ∧ 0 ≤ v .ttl ∧ v .ttl < 16777216 ∧ v .opTtl = v .op * 16777216 + v .ttl,
    fun v => Vals.set v .size (v .keySize + v .valSize), zeroGet, false⟩,
  ⟨wiki2016u, lWiki16u, [.time, .id, .size, .content], fun _ => True,
    fun v => Vals.set v .time 0, zeroSize, true⟩,
  ⟨wiki2019u, lWiki19u, [.time, .id, .size, .content], fun _ => True,
    fun v => v, zeroSize, true⟩,
  ⟨wiki2019t, lIQI, [.time, .id, .size], fun _ => True,
    fun v => v, zeroSize, false⟩,
  ⟨oracleAkamai, lOracleAkamai, [.time, .id, .size, .tenant, .bucket, .content, .next], fun _ => True,
    fun v => Vals.set (Vals.set (Vals.set (Vals.set v .next (nextOf (v .next))) .tenant (v .tenant - 1)) .bucket (v .bucket - 1)) .content (v .content - 1), zeroSize, false⟩,
  ⟨oracleCF1, lOracleCF1, [.time, .id, .size, .ttl, .age, .host, .next, .content, .ext, .nLevel, .nParam, .method, .colo], fun v => v .size < 9223372036854775808 ∧ v .age < 2147483648 ∧ v .host < 2147483648 ∧ v .ext < 32768 ∧ v .nLevel < 32768 ∧ v .method < 128,
    fun v => Vals.set v .next (nextOf (v .next)), zeroSize, false⟩,
  ⟨oracleSysTwrNS, lOracleSysTwrNS, [.time, .id, .size, .keySize, .valSize, .op, .ns, .ttl, .next], fun _ => True,
    fun v => Vals.set (Vals.set v .next (nextOf (v .next))) .size (v .keySize + v .valSize), zeroGet, false⟩,
  ⟨oracleWiki2016u, lOracleWiki16u, [.time, .id, .size, .content, .next], fun _ => True,
    fun v => Vals.set (Vals.set v .next (nextOf (v .next))) .time 0, zeroSize, false⟩,
  ⟨oracleWiki2019u, lOracleWiki19u, [.time, .id, .size, .content, .next], fun _ => True,
    fun v => Vals.set v .next (nextOf (v .next)), zeroSize, false⟩,
  ⟨valpin, lValpin, [.id, .size], fun _ => True,
    fun v => Vals.set v .size 1, never, false⟩,
  ⟨vscsi1, lVscsi1, [.time, .id, .size], fun _ => True,
    fun v => Vals.set v .time (v .ts / 1000000), never, false⟩,
  ⟨vscsi2, lVscsi2, [.time, .id, .size], fun _ => True,
    fun v => Vals.set v .time (v .ts / 1000000), never, false⟩
]

/-- a file of records of format `T` that can be opened -/
def TraceFormat.File (T : TraceFormat) (vs : List (Fld → Int)) : Prop := (∀ v ∈ vs, Fits T.L v ∧ T.ok v) ∧ vs ≠ []

/-- no record that the reader would leave out -/
def TraceFormat.NoZero (T : TraceFormat) (ignoreZero : Bool) (vs : List (Fld → Int)) : Prop := ∀ v ∈ vs, (ignoreZero && T.zero (T.mean v)) = false

/-- what reading to the end delivers, seen through the members `obs` -/
def seen (hash : Nat → Nat) (obs : List Fld) (rd : Reader) : Res (List (List Int)) :=
  readAll hash (rd.bytes.length + 1) rd newRequest >>= fun r => .ok (r.1.map (fun q => obs.map q.vals))

/-- the members `obs` of the expected requests -/
def TraceFormat.expect (T : TraceFormat) (hash : Nat → Nat) (p : Params) (vs : List (Fld → Int)) : List (List Int) :=
  (expected hash T.mean T.zero p vs).map (fun v => T.obs.map v)

/-- read `n` requests -/
def readN (hash : Nat → Nat) : Nat → Reader → Request → Res (Reader × Request)
  | 0, rd, q => .ok (rd, q)
  | n + 1, rd, q => readOne hash rd q >>= fun r => if r.1 ≠ 0 then .error .abort else readN hash n r.2.1 r.2.2

/-- the calls a client can make on a reader -/
inductive Call where
  | read | above | back | backTwo | skip (n : Nat) | reset | pos (offset : Nat) | first | last

def Call.run (hash : Nat → Nat) (rd : Reader) (q : Request) : Call → Res Reader
  | .read => readOne hash rd q >>= fun r => .ok r.2.1
  | .above => readAbove hash rd q >>= fun r => .ok r.2.1
  | .back => .ok (goBackOne rd).2
  | .backTwo => .ok (goBackTwo rd).2
  | .skip n => .ok (skipN rd n).2
  | .reset => .ok (Verif.Reader.reset rd)
  | .pos n => .ok (setPos rd n)
  | .first => readFirst hash rd q >>= fun r => .ok r.1
  | .last => readLast hash rd q >>= fun r => .ok r.1

/-- `rd` is what a sequence of calls (each with some request structure) makes of `rd0` -/
inductive Reached (hash : Nat → Nat) (rd0 : Reader) : Reader → Prop
  | refl : Reached hash rd0 rd0
  | step {rd rd' : Reader} (q : Request) (c : Call) : Reached hash rd0 rd → c.run hash rd q = .ok rd' → Reached hash rd0 rd'

/-- a reader whose sampler has no state -/
def NotTemporal : Option Sampler → Prop
  | some (.temporal _ _) => False
  | _ => True

end Verif.Spec.Reader
