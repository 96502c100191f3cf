import Verif.Utils.MyMath
/-!
# The statistics of the trace analyzer (libCacheSim/traceAnalyzer/utils/include/utilsMath.h)

The functions are templates; the model is in exact arithmetic, for vectors of rational numbers. Sums of sizes do not wrap around.
-/

namespace Verif.MathUtils
open Verif

/-- `set_rand_seed`, utilsMath.h:15-17: the signed 64-bit seed becomes an unsigned 128-bit number -/
def setSeed (seed : Int) : Nat := (seed % (2 ^ 128 : Int)).toNat

/-- the assignment in `next_rand`, utilsMath.h:25, in 128 bits -/
def step (s : Nat) : Nat := (6364136223846793005 * s + 1442695040888963407) % 2 ^ 128

/-- the value returned by `next_rand`, utilsMath.h:26, from the seed stored before -/
def value (s : Nat) : Nat := s % 2 ^ 64

/-- the stored seed after `n` calls -/
def after (s : Nat) : Nat → Nat
  | 0 => s
  | n + 1 => step (after s n)

/-- the elements between the iterators `begin() + first` and `end() - last`, utilsMath.h:38, 68 -/
def part (v : List Rat) (first last : Nat) : List Rat := (v.drop first).take (v.length - first - last)

/-- `mean`, utilsMath.h:29-40 -/
def mean (v : List Rat) (first last : Nat) : Rat :=
  if v.length = 0 then 0
  else if v.length ≤ first + last then 0
  else (part v first last).foldl (· + ·) 0 / ((v.length - first - last : Nat) : Rat)

/-- `median`, utilsMath.h:42-55; `at` throws beyond the end -/
def median (v : List Rat) : Res Rat :=
  if v.length = 0 then .ok 0
  else
    let c := v.mergeSort fun a b => decide (a ≤ b)
    if c.length % 2 = 0 then
      match c[c.length / 2 - 1]?, c[c.length / 2]? with
      | some x, some y => .ok ((x + y) / 2)
      | _, _ => .error .abort
    else
      match c[c.length / 2]? with
      | some x => .ok x
      | none => .error .abort

/-- `stdev`, utilsMath.h:57-72, before the square root is taken -/
def variance (v : List Rat) (first last : Nat) : Rat :=
  if v.length ≤ 1 then 0
  else if v.length ≤ first + last then 0
  else
    let m := mean v first last
    (part v first last).foldl (fun sum x => sum + (x - m) * (x - m)) 0 / ((v.length - first - last : Nat) : Rat)

end Verif.MathUtils
