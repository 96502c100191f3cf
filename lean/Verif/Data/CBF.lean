import Verif.Base.Res
/-!
# libCacheSim/dataStructure/minimalIncrementCBF.c

The two hash values of a key are arbitrary functions of the key.
-/

namespace Verif.CBF
open Verif

/-- the two 32-bit truncated `XXH64` values of a key, minimalIncrementCBF.c:89-90 -/
structure Hashes (κ : Type) where
  a : κ → Nat
  b : κ → Nat

/-- `struct minimalIncrementCBF`, minimalIncrementCBF.h: the fields the code uses; `bf` is an array of `counter_num`
unsigned 32-bit counters -/
structure Sketch where
  hashes : Nat
  counterNum : Nat
  bf : List Nat
  ready : Bool
deriving DecidableEq, Repr

/-- `x = (a + i * b) % CBF->counter_num`, minimalIncrementCBF.c:100, 117 -/
def idx (a b num i : Nat) : Nat := (a + i * b) % 2 ^ 32 % num

/-- first loop of `minimalIncrementCBF_check_add`, minimalIncrementCBF.c:99-113 -/
def minLoop (a b num : Nat) (bf : List Nat) : List Nat → Nat → Res Nat
  | [], m => .ok m
  | i :: is, m =>
    match bf[idx a b num i]? with
    | none => .error .outOfBounds
    | some c => if c < m then minLoop a b num bf is c else minLoop a b num bf is m

/-- second loop, minimalIncrementCBF.c:116-124: the increment stands outside the `if`, so every visited counter is
incremented, minimal or not; unsigned wrap-around -/
def incLoop (a b num : Nat) : List Nat → List Nat → Res (List Nat)
  | [], bf => .ok bf
  | i :: is, bf =>
    match bf[idx a b num i]? with
    | none => .error .outOfBounds
    | some c => incLoop a b num is (bf.set (idx a b num i) ((c + 1) % 2 ^ 32))

/-- conversion of the `unsigned int` result to the return type `int` -/
def toInt (n : Nat) : Int := if n < 2 ^ 31 then n else (n : Int) - 2 ^ 32

/-- `minimalIncrementCBF_check_add`, minimalIncrementCBF.c:75-127 -/
def checkAdd {κ : Type} (H : Hashes κ) (f : Sketch) (k : κ) (add : Bool) : Res (Int × Sketch) :=
  if f.ready = false then .ok (-1, f)
  else if f.counterNum = 0 then .error .assertFail
  else
    minLoop (H.a k) (H.b k) f.counterNum f.bf (List.range f.hashes) (2 ^ 32 - 1) >>= fun m =>
    if add = true ∧ m < 2 ^ 32 - 1 then
      incLoop (H.a k) (H.b k) f.counterNum (List.range f.hashes) f.bf >>= fun bf =>
      .ok (toInt (m + 1), { f with bf := bf })
    else .ok (toInt m, f)

/-- `minimalIncrementCBF_estimate`, minimalIncrementCBF.c:129-131 -/
def estimate {κ : Type} (H : Hashes κ) (f : Sketch) (k : κ) : Res (Int × Sketch) := checkAdd H f k false

/-- `minimalIncrementCBF_add`, minimalIncrementCBF.c:133-135 -/
def add {κ : Type} (H : Hashes κ) (f : Sketch) (k : κ) : Res (Int × Sketch) := checkAdd H f k true

/-- `minimalIncrementCBF_decay`, minimalIncrementCBF.c:153-169 -/
def decay (f : Sketch) : Int × Sketch :=
  if f.ready = false then (1, f) else (0, { f with bf := f.bf.map (fun c => c >>> 1) })

/-- `minimalIncrementCBF_init`, minimalIncrementCBF.c:27-67.  The number of counters and of hash functions are computed in
floating point from the number of entries and the error rate; the model takes them as parameters. -/
def init (num hashes : Nat) : Sketch := ⟨hashes, num, List.replicate num 0, true⟩

/-- the calls of a client -/
inductive SOp (κ : Type) where
  | add (k : κ)
  | estimate (k : κ)
  | decay

def step {κ : Type} (H : Hashes κ) (f : Sketch) : SOp κ → Res (Int × Sketch)
  | .add k => add H f k
  | .estimate k => estimate H f k
  | .decay => .ok (decay f)

def run {κ : Type} (H : Hashes κ) (f : Sketch) : List (SOp κ) → Res Sketch
  | [] => .ok f
  | op :: ops => step H f op >>= fun r => run H r.2 ops

end Verif.CBF
