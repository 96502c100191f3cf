import Verif.Base.Res
/-!
# libCacheSim/utils/include/mymath.h

64-bit unsigned values are naturals below 2^64; wrap-around is written out.
-/

namespace Verif.MyMath
open Verif

abbrev w64 : Nat := 2 ^ 64

/-- `next_rand`, mymath.h:27-30: the new seed, which is also the value returned.  `rand_seed` is thread local. -/
def nextRand (seed : Nat) : Nat := (6364136223846793005 * seed + 1442695040888963407) % w64

/-- the seed after `n` calls -/
def seedAfter (seed : Nat) : Nat → Nat
  | 0 => seed
  | n + 1 => nextRand (seedAfter seed n)

/-- `next_power_of_2_v2`, mymath.h:39-49 -/
def nextPow2V2 (n : Nat) : Nat :=
  let n := (n + (w64 - 1)) % w64
  let n := n ||| (n >>> 1)
  let n := n ||| (n >>> 2)
  let n := n ||| (n >>> 4)
  let n := n ||| (n >>> 8)
  let n := n ||| (n >>> 16)
  let n := n ||| (n >>> 32)
  (n + 1) % w64

/-- `__builtin_clzll`: number of leading zeros of a 64-bit value; undefined for 0 -/
def clz (n : Nat) : Res Nat := if n = 0 then .error .outOfBounds else .ok (63 - Nat.log2 n)

/-- the value of an unsigned 64-bit number read as `long long` -/
def asLL (n : Nat) : Int := if n < 2 ^ 63 then n else (n : Int) - w64

/-- `next_power_of_2`, mymath.h:32-37, for non-negative arguments.  A shift by a negative amount has no defined result. -/
def nextPow2 (n : Nat) : Res Int :=
  if n &&& (n - 1) = 0 then .ok (asLL n)
  else clz n >>= fun z =>
    if z = 0 then .error .outOfBounds else .ok (asLL (2 ^ 63 >>> (z - 1)))

/-- the loop of `log2_ull`, mymath.h:51-55: `while (n >>= 1) r++` -/
def log2Loop (n r : Nat) : Nat :=
  if h : n >>> 1 = 0 then r else log2Loop (n >>> 1) (r + 1)
termination_by n
decreasing_by
  rw [Nat.shiftRight_eq_div_pow] at h ⊢
  omega

/-- `log2_ull` -/
def log2Ull (n : Nat) : Nat := log2Loop n 0

/-- `log2_v2`, mymath.h:57-60 -/
def log2V2 (n : Nat) : Res Nat := clz n >>= fun z => .ok (64 - z)

end Verif.MyMath
