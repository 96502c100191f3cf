import Verif.Base.CacheBase
/-!
# The flash write amplification tool

`bin/customized/SOSP23/flash/flash.cpp`: replays a trace and compares the bytes written to the cache with the bytes of the distinct objects. The `int64_t` counters are natural numbers (no trace brings
2^63 bytes). The hash set is a list. Shifting the time of the requests has no effect on the caches modelled here. The ratios are kept as numerators and denominators. Of the ways in which `n_byte_write` is
computed the one for FIFO is modelled.
-/

namespace Verif.WriteAmp
open Verif

variable {σ : Type}

/-- The counters of calWriteAmp (flash.cpp:21-24). -/
structure Count where
  nReq : Nat
  nByte : Nat
  nUniq : Nat
  nUniqByte : Nat
  nMiss : Nat
  nMissByte : Nat
deriving DecidableEq, Repr

/-- flash.cpp:23-24. -/
def zero : Count := ⟨0, 0, 0, 0, 0, 0⟩

/-- Counting a request (flash.cpp:26-32). -/
def seenStep (seen : List Nat) (c : Count) (r : Req) : List Nat × Count :=
  let c := { c with nReq := c.nReq + 1, nByte := c.nByte + r.size }
  if r.id ∈ seen then (seen, c)
  else (r.id :: seen, { c with nUniq := c.nUniq + 1, nUniqByte := c.nUniqByte + r.size })

/-- Counting a miss (flash.cpp:34-37). -/
def missStep (c : Count) (r : Req) (hit : Bool) : Count :=
  if hit = false then { c with nMiss := c.nMiss + 1, nMissByte := c.nMissByte + r.size } else c

/-- The loop over the trace (flash.cpp:25-41). -/
def loop (A : Algo σ) (s : σ) (seen : List Nat) (c : Count) : List Req → Res (Count × σ)
  | [] => .ok (c, s)
  | r :: rs => do
    let (hit, s') ← A.get s r
    loop A s' (seenStep seen c r).1 (missStep (seenStep seen c r).2 r hit) rs

/-- What calWriteAmp prints. -/
structure Report where
  missRatio : Nat × Nat
  byteMissRatio : Nat × Nat
  writeAmp : Nat × Nat
deriving DecidableEq, Repr

/-- calWriteAmp for a FIFO cache (flash.cpp:11-50, 98). -/
def calWriteAmp (A : Algo σ) (s : σ) (trace : List Req) : Res Report := do
  let (c, _) ← loop A s [] zero trace
  let nByteWrite := c.nMissByte
  .ok ⟨(c.nMiss, c.nReq), (c.nMissByte, c.nByte), (nByteWrite, c.nUniqByte)⟩

end Verif.WriteAmp
