import Verif.Base.Res
/-!
# libCacheSim/dataStructure/bloom.c

The two hash values of a key (`XXH64` with two seeds, truncated to `unsigned int`) are arbitrary functions of the key.
-/

namespace Verif.Bloom
open Verif

/-- a key together with its two 32-bit hash values is all `bloom_check_add` looks at -/
structure Hashes (κ : Type) where
  a : κ → Nat
  b : κ → Nat

/-- `struct bloom`, bloom.h:22-39: the fields the code uses -/
structure Filter where
  bits : Nat
  hashes : Nat
  bf : List Nat
  ready : Bool
deriving DecidableEq, Repr

/-- `test_bit_set_bit`, bloom.c:36-50: is the bit set? and the buffer afterwards -/
def testBitSetBit (bf : List Nat) (x : Nat) (setBit : Bool) : Res (Bool × List Nat) :=
  match bf[x >>> 3]? with
  | none => .error .outOfBounds
  | some c =>
    let mask := 1 <<< (x % 8)
    if c &&& mask ≠ 0 then .ok (true, bf)
    else if setBit then .ok (false, bf.set (x >>> 3) (c ||| mask))
    else .ok (false, bf)

/-- the bit index of round `i`: `(a + i * b) % bits`, unsigned 32-bit arithmetic, bloom.c:72 -/
def idx (a b bits i : Nat) : Nat := (a + i * b) % 2 ^ 32 % bits

/-- the loop of `bloom_check_add`, bloom.c:71-79, over the remaining rounds; returns `none` for the early `return 0`,
or the number of hits -/
def loop (a b bits : Nat) (add : Bool) : List Nat → Nat → List Nat → Res (Option Nat × List Nat)
  | [], hits, bf => .ok (some hits, bf)
  | i :: is, hits, bf =>
    testBitSetBit bf (idx a b bits i) add >>= fun r =>
    if r.1 then loop a b bits add is (hits + 1) r.2
    else if add then loop a b bits add is hits r.2
    else .ok (none, r.2)

/-- `bloom_check_add`, bloom.c:52-82.  A remainder by zero has no result. -/
def checkAdd {κ : Type} (H : Hashes κ) (f : Filter) (k : κ) (add : Bool) : Res (Int × Filter) :=
  if f.ready = false then .ok (-1, f)
  else if f.bits = 0 ∧ f.hashes ≠ 0 then .error .outOfBounds
  else
    loop (H.a k) (H.b k) f.bits add (List.range f.hashes) 0 f.bf >>= fun r =>
    match r.1 with
    | none => .ok (0, { f with bf := r.2 })
    | some hits => if hits = f.hashes then .ok (1, { f with bf := r.2 }) else .ok (0, { f with bf := r.2 })

/-- `bloom_check`, bloom.c:123-125 -/
def check {κ : Type} (H : Hashes κ) (f : Filter) (k : κ) : Res (Int × Filter) := checkAdd H f k false

/-- `bloom_add`, bloom.c:127-129 -/
def add {κ : Type} (H : Hashes κ) (f : Filter) (k : κ) : Res (Int × Filter) := checkAdd H f k true

/-- `bloom_reset`, bloom.c:149-153 -/
def reset (f : Filter) : Int × Filter :=
  if f.ready = false then (1, f) else (0, { f with bf := f.bf.map (fun _ => 0) })

/-- `bloom_init`, bloom.c:89-121.  `bits` and `hashes` are computed with floating point from the expected number of
entries and the error rate; the model takes them as parameters. -/
def init (bits hashes : Nat) : Filter :=
  let bytes := if bits % 8 ≠ 0 then bits / 8 + 1 else bits / 8
  ⟨bits, hashes, List.replicate bytes 0, true⟩

/-- the calls of a client -/
inductive BOp (κ : Type) where
  | add (k : κ)
  | check (k : κ)
  | reset

def step {κ : Type} (H : Hashes κ) (f : Filter) : BOp κ → Res (Int × Filter)
  | .add k => add H f k
  | .check k => check H f k
  | .reset => .ok (reset f)

def run {κ : Type} (H : Hashes κ) (f : Filter) : List (BOp κ) → Res Filter
  | [] => .ok f
  | op :: ops => step H f op >>= fun r => run H r.2 ops

end Verif.Bloom
