import Verif.Tools.BlockConv
import Verif.Spec.Csv
/-!
# Block traces as text, and what converting one should produce
-/

namespace Verif.Spec.Block
open Verif Verif.Cli Verif.BlockConv Verif.Spec.Csv

/-- an operation on a block device -/
structure BlockOp where
  dev : Nat
  write : Bool
  off : Nat
  size : Nat
  time : Nat
deriving DecidableEq, Repr

/-- device, operation, offset, size, microseconds -/
def alibabaLine (o : BlockOp) : Str := dec o.dev ++ 44 :: ([if o.write then 87 else 82] ++ 44 :: (dec o.off ++ 44 :: (dec o.size ++ 44 :: dec o.time)))

/-- seconds, offset, sectors, operation, device -/
def tencentLine (o : BlockOp) : Str := dec o.time ++ 44 :: (dec o.off ++ 44 :: (dec o.size ++ 44 :: ([if o.write then 49 else 48] ++ 44 :: dec o.dev)))

/-- what the fields of an Alibaba trace hold -/
def AlibabaFits (o : BlockOp) : Prop := o.dev < 65536 ∧ o.off < 2 ^ 63 ∧ o.size < 2 ^ 31 ∧ o.time / 1000000 < 4294967295 ∧ o.time < 2 ^ 63

/-- what the fields of a Tencent trace hold: less than 2 GiB each -/
def TencentFits (o : BlockOp) : Prop := o.dev < 65536 ∧ o.off < 2 ^ 63 ∧ o.size < 4194304 ∧ o.time < 2 ^ 31

/-- the record of an operation: seconds since `t0`, the offset plus the device, bytes, and the operation (1 read, 3 write) and the device if asked for; there are `tick` time units per second and `sector` bytes per unit of size -/
def record (tick sector : Nat) (ext : Bool) (t0 : Nat) (o : BlockOp) : Out :=
  ⟨o.time / tick - t0, o.off + o.dev, o.size * sector, if ext then some (if o.write then 3 else 1, o.dev) else none⟩

/-- the trace starts at second `t0` and does not go below it -/
def From (tick t0 : Nat) (os : List BlockOp) : Prop := (∀ o, os.head? = some o → o.time / tick = t0) ∧ ∀ o ∈ os, t0 ≤ o.time / tick

end Verif.Spec.Block
