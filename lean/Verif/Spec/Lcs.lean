import Verif.Spec.BinFmt
/-!
# The lcs trace format

The layout of the header is the `struct` in traceReader/generalReader/lcs.h.
-/

namespace Verif.Spec.Lcs
open Verif Verif.Reader Verif.Spec.Reader Verif.Spec.BinFmt

/-- what the header of an lcs file says -/
structure Header where
  /-- one letter per field of a record -/
  letters : List Char
  /-- which field (from 1) is what; 0: there is none -/
  id : Nat
  size : Nat
  time : Nat
  last : Nat
  next : Nat
  op : Nat
  ttl : Nat
  tenant : Nat
  content : Nat
  /-- 231 bytes without meaning -/
  reserved : List Nat
  /-- 512 bytes of statistics -/
  stats : List Nat
  /-- 8 bytes -/
  version : List Nat

/-- the number of bytes of a record -/
def recordSize (letters : List Char) : Nat := (letters.map (fun c => ((letter c).map Prod.fst).getD 0)).sum

/-- a string in an array of `n` bytes -/
def padded (n : Nat) (s : List Char) : List Nat := s.map Char.toNat ++ List.replicate (n - s.length) 0

/-- the 1024 bytes of the header -/
def Header.bytes (h : Header) : List Nat :=
  leBytes 8 0x123456789abcdef0 ++ (padded 240 ('<' :: h.letters) ++ ([h.id, h.size, h.time, h.last, h.next, h.op, h.ttl, h.tenant, h.content] ++ (h.reserved ++ (h.stats ++
  (leBytes 4 h.letters.length ++ (leBytes 4 (recordSize h.letters) ++ (h.version ++ leBytes 8 0x123456789abcdef0)))))))

/-- a header that can be written: integer letters, at most 238 of them; the object id is one of the fields, the other members are or are absent -/
structure Header.Ok (h : Header) : Prop where
  letters : ∀ c ∈ h.letters, (letter c).isSome = true
  few : h.letters.length ≤ 238
  id : 1 ≤ h.id ∧ h.id ≤ h.letters.length
  size : h.size ≤ h.letters.length
  time : h.time ≤ h.letters.length
  next : h.next ≤ h.letters.length
  op : h.op ≤ h.letters.length
  reserved : h.reserved.length = 231
  stats : h.stats.length = 512
  version : h.version.length = 8

/-- the fields of the request that records have -/
def Header.fields (h : Header) : List (Fld × Nat) :=
  [(Fld.id, h.id), (.time, h.time), (.size, h.size), (.op, h.op), (.next, h.next)].filter (fun x => x.2 ≠ 0)

/-- the members of the request that are given -/
def Header.given (h : Header) : List Fld := h.fields.map Prod.fst

/-- the values of a record by member -/
def Header.values (h : Header) (vs : List Int) : Fld → Int := fun f =>
  match h.fields.find? (fun x => x.1 = f) with
  | some x => (vs[x.2 - 1]?).getD 0
  | none => 0

/-- `body` are the bytes of the records `rs` -/
inductive Records (letters : List Char) : List (List Int) → List Nat → Prop
  | nil : Records letters [] []
  | cons {vs : List Int} {bs : List Nat} {rs : List (List Int)} {body : List Nat} :
      Rec letters vs bs → Records letters rs body → Records letters (vs :: rs) (bs ++ body)

/-- the member of the request can hold the value: ids below 2^64, operations below 2^32 (numbers of other members take 64 bits) -/
def Storable : Fld → Int → Prop
  | .id, v => 0 ≤ v ∧ v < 2 ^ 64
  | .op, v => 0 ≤ v ∧ v < 2 ^ 32
  | _, v => -(2 ^ 63) ≤ v ∧ v < 2 ^ 63

/-- an lcs file with at least one record; values of unsigned letters below half their range (see C38) -/
structure File (h : Header) (rs : List (List Int)) (body : List Nat) : Prop where
  header : h.Ok
  records : Records h.letters rs body
  some : rs ≠ []
  half : ∀ vs ∈ rs, Half h.letters vs
  store : ∀ vs ∈ rs, ∀ f ∈ h.given, Storable f (h.values vs f)

/-- what reading must deliver -/
def expect (h : Header) (hash : Nat → Nat) (p : Params) (rs : List (List Int)) : List (List Int) :=
  (expected hash (fun v => v) never p (rs.map h.values)).map (fun v => h.given.map v)

end Verif.Spec.Lcs
