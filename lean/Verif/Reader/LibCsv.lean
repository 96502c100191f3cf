import Verif.Base.Res
/-!
# libCacheSim/traceReader/generalReader/libcsv.c, libcsv.h

The CSV parser used by the csv reader.  Bytes are natural numbers below 256.  The callbacks `cb1`, `cb2` become the list of events they would be called
with.  Only the option the reader sets, `CSV_APPEND_NULL`, is on; `is_space` and `is_term` are not set.  Memory allocation succeeds.  The entry buffer is the list of the `entry_pos`
bytes written so far together with its capacity `entry_size`; a write outside the capacity is a fault.
-/

namespace Verif.Csv
open Verif

/-- libcsv.c:36-39 -/
inductive PState where
  | rowNotBegun | fieldNotBegun | fieldBegun | mightHaveEnded
deriving DecidableEq, Repr

/-- the callbacks: `cb1(entry_buf, entry_pos, data)`, `cb2(c, data)` -/
inductive Ev where
  | field (s : List Nat)
  | row (c : Int)
deriving DecidableEq, Repr

/-- `struct csv_parser`, libcsv.h:44-62; `csv_init`, libcsv.c:107-129, gives the defaults. -/
structure Parser where
  st : PState := .rowNotBegun
  quoted : Bool := false
  spaces : Nat := 0
  /-- `entry_buf[0 .. entry_pos)` -/
  buf : List Nat := []
  /-- `entry_size`; 0 while `entry_buf` is NULL -/
  size : Nat := 0
  /-- `delim_char` -/
  delim : Nat := 44
  /-- `quote_char` -/
  quote : Nat := 34
deriving DecidableEq, Repr

/-- `CSV_SPACE` or `CSV_TAB`, libcsv.h:36-37 -/
def isBlank (c : Nat) : Bool := c == 32 || c == 9

/-- `CSV_CR` or `CSV_LF`, libcsv.h:38-39 -/
def isTerm (c : Nat) : Bool := c == 13 || c == 10

/-- `entry_pos -= k`; below zero the unsigned position wraps around and the next write is out of bounds -/
def dropLast (p : Parser) (k : Nat) : Res Parser :=
  if k ≤ p.buf.length then .ok { p with buf := p.buf.take (p.buf.length - k) } else .error .outOfBounds

/-- `SUBMIT_FIELD`, libcsv.c:53-63, with `CSV_APPEND_NULL` and without `CSV_EMPTY_IS_NULL` -/
def submitField (p : Parser) : Res (List Ev × Parser) :=
  (if p.quoted then .ok p else dropLast p p.spaces) >>= fun q =>
  if q.buf.length < q.size then .ok ([.field q.buf], { q with st := .fieldNotBegun, buf := [], quoted := false, spaces := 0 })
  else .error .outOfBounds

/-- `SUBMIT_ROW`, libcsv.c:65-70 -/
def submitRow (p : Parser) (c : Int) : List Ev × Parser :=
  ([.row c], { p with st := .rowNotBegun, buf := [], quoted := false, spaces := 0 })

/-- `SUBMIT_FIELD` followed by `SUBMIT_ROW` -/
def submitBoth (p : Parser) (c : Int) : Res (List Ev × Parser) :=
  submitField p >>= fun r => .ok (r.1 ++ (submitRow r.2 c).1, (submitRow r.2 c).2)

/-- `SUBMIT_CHAR`, libcsv.c:72 -/
def submitChar (p : Parser) (c : Nat) : Res (List Ev × Parser) :=
  if p.buf.length < p.size then .ok ([], { p with buf := p.buf ++ [c] }) else .error .outOfBounds

/-- the `switch` in `csv_parse`, libcsv.c:304-428 -/
def step (p : Parser) (c : Nat) : Res (List Ev × Parser) :=
  match p.st with
  | .rowNotBegun | .fieldNotBegun =>
    if isBlank c ∧ c ≠ p.delim then .ok ([], p)
    else if isTerm c then
      if p.st = .fieldNotBegun then submitBoth p c else .ok ([], p)
    else if c = p.delim then submitField p
    else if c = p.quote then .ok ([], { p with st := .fieldBegun, quoted := true })
    else submitChar { p with st := .fieldBegun, quoted := false } c
  | .fieldBegun =>
    if c = p.quote then
      if p.quoted then submitChar { p with st := .mightHaveEnded } c
      else submitChar { p with spaces := 0 } c
    else if c = p.delim then
      if p.quoted then submitChar p c else submitField p
    else if isTerm c then
      if p.quoted then submitChar p c else submitBoth p c
    else if !p.quoted && isBlank c then submitChar { p with spaces := p.spaces + 1 } c
    else submitChar { p with spaces := 0 } c
  | .mightHaveEnded =>
    if c = p.delim then dropLast p (p.spaces + 1) >>= submitField
    else if isTerm c then dropLast p (p.spaces + 1) >>= fun q => submitBoth q c
    else if isBlank c then submitChar { p with spaces := p.spaces + 1 } c
    else if c = p.quote then
      if p.spaces > 0 then submitChar { p with spaces := 0 } c
      else .ok ([], { p with st := .fieldBegun })
    else submitChar { p with st := .fieldBegun, spaces := 0 } c

/-- the check before each character, libcsv.c:292-300; `csv_increase_buffer`, lines 234-263, adds 128 -/
def grow (p : Parser) : Parser := if p.buf.length = p.size - 1 then { p with size := p.size + 128 } else p

/-- the loop of `csv_parse`, libcsv.c:291-429 -/
def loop : Parser → List Nat → Res (List Ev × Parser)
  | p, [] => .ok ([], p)
  | p, c :: cs => step (grow p) c >>= fun r => loop r.2 cs >>= fun t => .ok (r.1 ++ t.1, t.2)

/-- `csv_parse`, libcsv.c:265-433; the buffer is allocated on first use, lines 282-289 -/
def parse (p : Parser) (s : List Nat) : Res (List Ev × Parser) :=
  loop (if p.size = 0 ∧ s ≠ [] then { p with size := 128 } else p) s

/-- "Reset parser", libcsv.c:177-178 -/
def clear (p : Parser) : Parser := { p with st := .rowNotBegun, quoted := false, spaces := 0, buf := [] }

/-- `csv_fini`, libcsv.c:143-181 -/
def fini (p : Parser) : Res (List Ev × Parser) :=
  match p.st with
  | .rowNotBegun => .ok ([], clear p)
  | .fieldNotBegun | .fieldBegun => submitBoth p (-1) >>= fun r => .ok (r.1, clear r.2)
  | .mightHaveEnded => dropLast p (p.spaces + 1) >>= fun q => submitBoth q (-1) >>= fun r => .ok (r.1, clear r.2)

/-- `csv_write2`, libcsv.c:488-516 (`csv_write`, lines 435-463, is the case `quote = '"'`): the bytes it would write to a large enough
buffer; with `dest_size` bytes it writes the first `dest_size` of them. -/
def quoteBytes (quote : Nat) (src : List Nat) : List Nat :=
  quote :: src.flatMap (fun c => if c = quote then [quote, c] else [c]) ++ [quote]

/-- `csv_write2`: the bytes written and the value returned -/
def write (quote destSize : Nat) (src : List Nat) : List Nat × Nat :=
  ((quoteBytes quote src).take destSize, (quoteBytes quote src).length)

end Verif.Csv
