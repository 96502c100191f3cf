import Verif.Reader.CLib
import Mathlib.Data.List.Infix
/-!
# The C library functions the command line uses

Models of the C standard and of the BSD/GNU functions `strsep` and `strcasestr` (there is no source in /repo), next to those of
`Verif/Reader/CLib.lean`.  A string is the list of its bytes without the terminating NUL.
-/

namespace Verif.Cli
open Verif Verif.CLib

abbrev Str := List Nat

/-- a string literal -/
def lit (s : String) : Str := s.toList.map Char.toNat

/-- `tolower` in the C locale -/
def lower (c : Nat) : Nat := if 65 ≤ c ∧ c ≤ 90 then c + 32 else c

/-- `strcasecmp(a, b) == 0` -/
def ieq (a b : Str) : Bool := a.map lower == b.map lower

/-- `strstr(s, n) != NULL` -/
def occurs (n : Str) : Str → Bool
  | [] => n.isEmpty
  | c :: s => n.isPrefixOf (c :: s) || occurs n s

/-- `strcasestr(s, n) != NULL` -/
def ioccurs (n s : Str) : Bool := occurs (n.map lower) (s.map lower)

/-- what `strtoul`/`strtol` read: the sign and the digits in base 10 -/
def signed (s : Str) : Bool × Nat :=
  match s.dropWhile isSpace with
  | 45 :: r => (true, digitsVal 10 (digitPrefix 10 r))
  | 43 :: r => (false, digitsVal 10 (digitPrefix 10 r))
  | r => (false, digitsVal 10 (digitPrefix 10 r))

/-- `strtoul(s, NULL, 10)` with 64-bit `long` -/
def strtoul10 (s : Str) : Nat := if (signed s).1 ∧ (signed s).2 < 2 ^ 64 then (2 ^ 64 - (signed s).2) % 2 ^ 64 else clamp (signed s).2

/-- `strtol(s, NULL, 10)` with 64-bit `long` -/
def strtol10 (s : Str) : Int := if (signed s).1 then max (-(2 ^ 63)) (-((signed s).2 : Int)) else min (2 ^ 63 - 1) ((signed s).2 : Int)

/-- `strtok`: the separators in front are skipped; the token, and what is left behind the separator that ends it -/
def strtok (c : Nat) (s : Str) : Option (Str × Str) :=
  match s.dropWhile (fun x => decide (x = c)) with
  | [] => none
  | r => some (r.takeWhile (fun x => decide (x ≠ c)), (r.dropWhile (fun x => decide (x ≠ c))).drop 1)

/-- `strsep`: the text up to the separator, and what is left behind it; `none`: there was no separator, the pointer is set to NULL -/
def strsep (c : Nat) (s : Str) : Str × Option Str :=
  (s.takeWhile (fun x => decide (x ≠ c)), match s.dropWhile (fun x => decide (x ≠ c)) with | [] => none | _ :: t => some t)

/-- the exact value of the decimal number at the front of the text, `digits[.digits][e[+-]digits]`; 0 if there is none -/
def unsignedRat (r : Str) : Rat :=
  let ip := digitPrefix 10 r
  let r1 := r.drop ip.length
  let fp := match r1 with | 46 :: t => digitPrefix 10 t | _ => []
  let r2 := match r1 with | 46 :: t => t.drop fp.length | _ => r1
  let e : Int := if ip = [] ∧ fp = [] then 0 else match r2 with | 101 :: t => expVal t | 69 :: t => expVal t | _ => 0
  let e10 : Int := e - fp.length
  let m : Rat := (digitsVal 10 (ip ++ fp) : Nat)
  if e10 ≥ 0 then m * 10 ^ e10.toNat else m / 10 ^ (-e10).toNat

/-- the exact value of the number `atof` reads.  Not modelled: hexadecimal numbers, `inf` and `nan`. -/
def atofRat (s : Str) : Rat :=
  match s.dropWhile isSpace with
  | 45 :: r => -unsignedRat r
  | 43 :: r => unsignedRat r
  | r => unsignedRat r

/-- `(uint64_t)x` of a `double`: towards zero; undefined behaviour if the result does not fit -/
def toU64 (x : Rat) : Res Nat := if -1 < x ∧ x < 18446744073709551616 then .ok x.floor.toNat else .error .overflow

/-- `(long)x` of a non-negative `double` -/
def toLong (x : Rat) : Nat := x.floor.toNat

/-- the digits `%lld` and `%.0lf` print -/
def decText (n : Nat) : Str := (Nat.toDigits 10 n).map Char.toNat

/-- the smallest magnitude of a normal `double` -/
def minNormal : Rat := 1 / 2 ^ 1022

/-- what is used of the rounding of `double` results: it is monotone, exact for integers up to 2^53, and off by at most one part in 2^53
(for magnitudes from 2^-1022 on, and for 0).  IEEE 754 round to nearest is such a function; the theorems hold for every one. -/
structure Rounding (rd : Rat → Rat) : Prop where
  mono : ∀ x y, x ≤ y → rd x ≤ rd y
  int : ∀ n : Nat, n ≤ 9007199254740992 → rd (n : Rat) = (n : Rat)
  near : ∀ x : Rat, x = 0 ∨ minNormal ≤ x → rd x ≤ x + x / 9007199254740992 ∧ x - x / 9007199254740992 ≤ rd x

end Verif.Cli
