import Verif.Base.Res
/-!
# Reading little-endian integers from the mapped file

`*(uint32_t *)(record + 12)` and friends, as used by all binary readers (libCacheSim/traceReader/customizedReader/*.h,
generalReader/binary.c:183-210).  The host is little endian.  Reading past the end of the file is a fault.
-/

namespace Verif.Reader
open Verif

/-- unsigned little-endian value of `k` bytes at offset `off` -/
def leU (bs : List Nat) : Nat → Nat → Res Nat
  | _, 0 => .ok 0
  | off, k + 1 =>
    match bs[off]? with
    | none => .error .outOfBounds
    | some b => leU bs (off + 1) k >>= fun r => .ok (b + 256 * r)

/-- two's complement reading of a `k`-byte unsigned value -/
def toSigned (k : Nat) (v : Nat) : Int := if v < 256 ^ k / 2 then v else (v : Int) - 256 ^ k

/-- a field of `k` bytes, signed or unsigned -/
def leI (bs : List Nat) (off k : Nat) (signed : Bool) : Res Int :=
  leU bs off k >>= fun v => .ok (if signed then toSigned k v else v)

end Verif.Reader
