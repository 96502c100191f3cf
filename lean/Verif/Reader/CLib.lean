import Verif.Base.Res
import Verif.Base.Double
/-!
# The C library functions the text readers call

These are models of the C standard (there is no source in /repo).  Bytes are natural numbers; the end of a list acts as the terminating NUL.
-/

namespace Verif.CLib
open Verif

/-- `isspace` in the C locale -/
def isSpace (c : Nat) : Bool := c == 32 || (9 ≤ c && c ≤ 13)

/-- `isdigit` -/
def isDigit (c : Nat) : Bool := 48 ≤ c && c ≤ 57

/-- `isalpha` in the C locale -/
def isAlpha (c : Nat) : Bool := (65 ≤ c && c ≤ 90) || (97 ≤ c && c ≤ 122)

/-- the value of a digit or letter, at least 99 if it is neither -/
def digitVal (c : Nat) : Nat :=
  if isDigit c then c - 48 else if 97 ≤ c ∧ c ≤ 122 then c - 87 else if 65 ≤ c ∧ c ≤ 90 then c - 55 else 99

/-- the longest prefix of digits in `base` -/
def digitPrefix (base : Nat) (s : List Nat) : List Nat := s.takeWhile (fun c => decide (digitVal c < base))

/-- the value of digits, most significant first -/
def digitsVal (base : Nat) (s : List Nat) : Nat := s.foldl (fun a c => a * base + digitVal c) 0

/-- how `strtoull(s, &end, 0)` splits the text: base and digits; `none` if there is no conversion (`end == s`) -/
def splitBase (s : List Nat) : Option (Nat × List Nat) :=
  match s with
  | 48 :: x :: y :: r =>
    if (x = 120 ∨ x = 88) ∧ digitVal y < 16 then some (16, digitPrefix 16 (y :: r)) else some (8, digitPrefix 8 (48 :: x :: y :: r))
  | 48 :: r => some (8, digitPrefix 8 (48 :: r))
  | _ => if digitPrefix 10 s = [] then none else some (10, digitPrefix 10 s)

/-- the value without sign: clamped to `ULLONG_MAX` -/
def clamp (v : Nat) : Nat := min v (2 ^ 64 - 1)

/-- `strtoull(s, &end, 0)` (and, with 64-bit `long`, `strtoul`); `none`: no conversion, 0 is returned and `end == s` -/
def strtoull (s : List Nat) : Option Nat :=
  match s.dropWhile isSpace with
  | 45 :: r => (splitBase r).map (fun p => (2 ^ 64 - clamp (digitsVal p.1 p.2)) % 2 ^ 64)
  | 43 :: r => (splitBase r).map (fun p => clamp (digitsVal p.1 p.2))
  | r => (splitBase r).map (fun p => clamp (digitsVal p.1 p.2))

/-- the integer part of the `double` nearest to `a / b` (ties to even), for `b > 0` -/
def floorDbl (a b : Nat) : Nat :=
  if a = 0 then 0
  else
    let k := 54 + Nat.log2 b
    let n := a * 2 ^ k
    let q := 2 * (n / b) + (if n % b = 0 then 0 else 1)
    roundTo (Nat.log2 q - 52) q / 2 ^ (k + 1)

/-- the number after the exponent letter -/
def expVal (s : List Nat) : Int :=
  match s with
  | 45 :: r => -(digitsVal 10 (digitPrefix 10 r) : Int)
  | 43 :: r => digitsVal 10 (digitPrefix 10 r)
  | r => digitsVal 10 (digitPrefix 10 r)

/-- `(uint64_t)atof(s)` for an unsigned decimal number `digits[.digits][e[+-]digits]` after white space; text that is not a number gives 0.
Not modelled: hexadecimal numbers, `inf` and `nan`.  A negative number, and a value from 2^64 on, cannot be converted: undefined behaviour. -/
def atofU64 (s : List Nat) : Res Nat :=
  match s.dropWhile isSpace with
  | 45 :: _ => .error .outOfBounds
  | r =>
    let ip := digitPrefix 10 r
    let r1 := r.drop ip.length
    let fp := match r1 with | 46 :: t => digitPrefix 10 t | _ => []
    let r2 := match r1 with | 46 :: t => t.drop fp.length | _ => r1
    let e : Int := if ip = [] ∧ fp = [] then 0 else match r2 with | 101 :: t => expVal t | 69 :: t => expVal t | _ => 0
    let e10 : Int := e - fp.length
    let m := digitsVal 10 (ip ++ fp)
    let v := if e10 ≥ 0 then floorDbl (m * 10 ^ e10.toNat) 1 else floorDbl m (10 ^ (-e10).toNat)
    if v < 2 ^ 64 then .ok v else .error .outOfBounds

/-- `getline` at offset `pos` of the file: the line with its newline, if any; `none` at the end of the file -/
def getline (bytes : List Nat) (pos : Nat) : Option (List Nat) :=
  match bytes.drop pos with
  | [] => none
  | r => some (r.takeWhile (fun c => decide (c ≠ 10)) ++ (if 10 ∈ r then [10] else []))

/-- the part of a buffer that the string functions see -/
def cstr (s : List Nat) : List Nat := s.takeWhile (fun c => decide (c ≠ 0))

/-- `fseek(file, delta, SEEK_CUR)`: fails, and leaves the position, if the result would be negative -/
def seekCur (pos : Nat) (delta : Int) : Nat := if (pos : Int) + delta < 0 then pos else ((pos : Int) + delta).toNat

/-- `strrchr(buf, c)` as an index -/
def strrchr (s : List Nat) (c : Nat) : Option Nat :=
  if c ∈ cstr s then some ((cstr s).length - 1 - (cstr s).reverse.idxOf c) else none

end Verif.CLib
