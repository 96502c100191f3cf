import Verif.Spec.Csv
import Verif.Reader.Text
import Mathlib.Data.List.Forall2
/-!
# What a text trace says

The requests a CSV or plain text trace file describes, independent of the readers.
-/

namespace Verif.Spec.Text
open Verif.Spec.Csv
open Verif.Text (Params)

/-- one row of a trace: `cnt` requests for the object `id` of `size` bytes at `time` -/
structure Item where
  time : Nat
  id : Nat
  size : Nat
  cnt : Nat := 1
deriving DecidableEq, Repr

/-- column `i` of a row; columns are numbered from 1 -/
def col (fs : List (List Nat)) (i : Int) : Option (List Nat) := if 1 ≤ i then fs[(i - 1).toNat]? else none

/-- no column is given two meanings; 0 stands for a column that the trace does not have -/
def Distinct (p : Params) : Prop :=
  (p.idField = p.timeField → p.idField = 0) ∧ (p.idField = p.sizeField → p.idField = 0) ∧ (p.idField = p.cntField → p.idField = 0) ∧
  (p.timeField = p.sizeField → p.timeField = 0) ∧ (p.timeField = p.cntField → p.timeField = 0) ∧ (p.sizeField = p.cntField → p.sizeField = 0)

/-- what the columns of a row stand for: the id is a decimal number below 2^64 or hashed, the time has at most 53 bits with all its decimals, the size 32 bits, the count 31.  A trace
without a time, size or count column has time 0, size 1, count 1. -/
structure RowSays (hash : List Nat → Nat) (p : Params) (fs : List (List Nat)) (x : Item) : Prop where
  id : ∃ f, col fs p.idField = some f ∧ if p.idIsNum then f = dec x.id ∧ x.id < 2 ^ 64 else x.id = hash f % 2 ^ 64
  time : if p.timeField = 0 then x.time = 0 else ∃ f, col fs p.timeField = some f ∧ TimeText x.time f
  size : if p.sizeField = 0 then x.size = 1 else col fs p.sizeField = some (dec x.size) ∧ x.size < 2 ^ 32
  cnt : if p.cntField = 0 then x.cnt = 1 else col fs p.cntField = some (dec x.cnt) ∧ 1 ≤ x.cnt ∧ x.cnt ≤ 2 ^ 31

/-- the lines of a file: each a row that is not blank and has no newline in it; the last line may lack its line end -/
inductive Lines (d : Nat) : List (List (List Nat)) → List Nat → Prop
  | nil : Lines d [] []
  | last {fs : List (List Nat)} {t : List Nat} : WrittenRow d 34 fs t → 10 ∉ t → ¬ Blanks d t → Lines d [fs] t
  | cons {fs : List (List Nat)} {t e : List Nat} {rows : List (List (List Nat))} {rest : List Nat} :
      WrittenRow d 34 fs t → 10 ∉ t → ¬ Blanks d t → LineEnd e → Lines d rows rest → Lines d (fs :: rows) ((t ++ e) ++ rest)

/-- the requests of a trace: rows of size 0 are dropped if so configured, each row stands for `cnt` requests, sizes are ignored if so configured -/
def requests (p : Params) (xs : List Item) : List (Int × Int × Int) :=
  (xs.filter (fun x => !(p.ignoreZero && decide (x.size = 0)))).flatMap (fun x =>
    List.replicate x.cnt ((x.time : Int), (x.id : Int), if p.ignoreSize then (1 : Int) else (x.size : Int)))

/-- what a client sees: at most `cap` requests if a cap is given -/
def expected (p : Params) (xs : List Item) : List (Int × Int × Int) :=
  if p.cap > 1 then (requests p xs).take p.cap.toNat else requests p xs

/-- time, id and size of a request -/
def shown (q : Verif.Reader.Request) : Int × Int × Int := (q.vals .time, q.vals .id, q.vals .size)

end Verif.Spec.Text

namespace Verif.Spec.Text
open Verif.Spec.Csv
open Verif.Text (Params)

/-- the first line of a file without its newline -/
def head (bytes : List Nat) : List Nat := bytes.takeWhile (fun c => decide (c ≠ 10))

/-- a CSV file: an optional header line, then the rows -/
inductive CsvFile (d : Nat) (rows : List (List (List Nat))) : Bool → List Nat → Prop
  | plain {text : List Nat} : Lines d rows text → CsvFile d rows false text
  | headed {h text : List Nat} : 10 ∉ h → Lines d rows text → CsvFile d rows true (h ++ 10 :: text)

/-- the delimiters that can be detected, with their weights: tab, comma, bar, colon -/
def candidates : List (Nat × Nat) := [(9, 4), (44, 3), (124, 2), (58, 1)]

/-- `d` is the delimiter with the largest weighted number of occurrences in a line, the first of these if there are several -/
def Favoured (line : List Nat) (d : Nat) : Prop :=
  ∃ pre w post, candidates = pre ++ (d, w) :: post ∧ 0 < line.count d ∧
    (∀ x ∈ pre, x.2 * line.count x.1 < w * line.count d) ∧ (∀ x ∈ post, x.2 * line.count x.1 ≤ w * line.count d)

/-- `d` is found to be the delimiter: given, and used in the first line, or favoured by the first line -/
def DelimiterFound (p : Params) (bytes : List Nat) (d : Nat) : Prop :=
  (p.delimiter ≠ 0 ∧ p.delimiter = d ∧ d ∈ head bytes) ∨ (p.delimiter = 0 ∧ (head bytes).length < 1023 ∧ Favoured (head bytes) d)

/-- letters and digits of a line -/
def letters (l : List Nat) : Nat := l.countP (fun c => decide ((65 ≤ c ∧ c ≤ 90) ∨ (97 ≤ c ∧ c ≤ 122)))
def digits (l : List Nat) : Nat := l.countP (fun c => decide (48 ≤ c ∧ c ≤ 57))

/-- the file is taken to have a header, or not: as told, or by comparing the letters and digits of the first line -/
def HeaderFound (p : Params) (bytes : List Nat) (h : Bool) : Prop :=
  (p.hasHeaderSet = true ∧ p.hasHeader = h) ∨ (p.hasHeaderSet = false ∧ (head bytes).length < 1023 ∧ (h = true ↔ digits (head bytes) ≤ letters (head bytes)))

/-- a plain text file: lines without a newline in them, empty lines in between, the last line may lack its newline -/
inductive TxtFile : List (List Nat) → List Nat → Prop
  | nil : TxtFile [] []
  | last {t : List Nat} : t ≠ [] → 10 ∉ t → TxtFile [t] t
  | cons {t : List Nat} {ts : List (List Nat)} {rest : List Nat} : t ≠ [] → 10 ∉ t → TxtFile ts rest → TxtFile (t :: ts) (t ++ 10 :: rest)
  | empty {ts : List (List Nat)} {rest : List Nat} : TxtFile ts rest → TxtFile ts (10 :: rest)

/-- at most `cap` elements if a cap is given -/
def upTo {α : Type} (p : Params) (l : List α) : List α := if p.cap > 1 then l.take p.cap.toNat else l

end Verif.Spec.Text

namespace Verif.Spec.Text

/-- the lines of a text, each with its newline -/
def rawLines : List Nat → List (List Nat)
  | [] => []
  | c :: cs =>
    if c = 10 then [10] :: rawLines cs
    else match rawLines cs with
      | [] => [[c]]
      | l :: ls => (c :: l) :: ls

/-- white space: blank, tab, newline, vertical tab, form feed, carriage return -/
def White (c : Nat) : Prop := c = 32 ∨ (9 ≤ c ∧ c ≤ 13)

/-- a file without its header line -/
def body (header : Bool) (bytes : List Nat) : List Nat := if header then (bytes.dropWhile (fun c => decide (c ≠ 10))).drop 1 else bytes

/-- a file that can be read backwards: every line has at least two bytes and at most 1023, its newline included, and so has the last line without the white space it ends in -/
def Retraceable (text : List Nat) : Prop :=
  (∀ l ∈ rawLines text, 2 ≤ l.length ∧ l.length ≤ 1023) ∧
  ∃ a x y w, (rawLines text).getLast? = some (a ++ x :: y :: w) ∧ ¬ White y ∧ ∀ c ∈ w, White c

end Verif.Spec.Text

namespace Verif.Spec.Text
open Verif.Spec.Csv Verif.Text
open Verif.Reader (Request newRequest)

/-- a line holding a number, perhaps with a carriage return -/
def NumLine (t : List Nat) (n : Nat) : Prop := (t = dec n ∨ t = dec n ++ [13]) ∧ n < 2 ^ 64

/-- the readers that can be reached from a reader by reading, skipping, stepping and resetting -/
inductive Used (hash : List Nat → Nat) (rd0 : TReader) : TReader → Prop
  | refl : Used hash rd0 rd0
  | read {rd rd' : TReader} {q q' : Request} {s : Int} : Used hash rd0 rd → readOne hash rd q = .ok (s, rd', q') → Used hash rd0 rd'
  | above {rd rd' : TReader} {q q' : Request} {s : Int} : Used hash rd0 rd → readAbove hash rd q = .ok (s, rd', q') → Used hash rd0 rd'
  | skip {rd : TReader} (n : Nat) : Used hash rd0 rd → Used hash rd0 (skipN rd n).2
  | back {rd rd' : TReader} {s : Int} : Used hash rd0 rd → goBackOne rd = .ok (s, rd') → Used hash rd0 rd'
  | seek {rd rd' : TReader} (offset : Nat) : Used hash rd0 rd → setPos rd offset = .ok rd' → Used hash rd0 rd'
  | reset {rd : TReader} : Used hash rd0 rd → Used hash rd0 (reset rd)

/-- what a client sees that reads until a read fails, for at most `n` reads -/
def delivered (hash : List Nat → Nat) (n : Nat) (rd : TReader) : Res (List (Int × Int × Int)) :=
  readAll hash n rd newRequest >>= fun r => .ok (r.1.map shown)

/-- what a client sees that opens a CSV file and reads it to the end -/
def csvSees (hash : List Nat → Nat) (n : Nat) (bytes : List Nat) (p : Params) : Res (List (Int × Int × Int)) :=
  setupCsv bytes p >>= fun rd => delivered hash n rd

/-- a trace written as time, id and size, one line per request -/
def csvOf (d : Nat) (xs : List Item) : List Nat := xs.flatMap (fun x => joined d [dec x.time, dec x.id, dec x.size] ++ [10])

/-- a CSV file with delimiter `d`, with or without a header, whose rows say `xs`, and that is opened with suitable parameters: the columns are different, delimiter and header are
given or found -/
structure CsvTrace (hash : List Nat → Nat) (p : Params) (bytes : List Nat) (d : Nat) (h : Bool) (xs : List Item) : Prop where
  start : p.start = 0
  distinct : Distinct p
  chars : Chars d 34
  noNul : 0 ∉ bytes
  delim : DelimiterFound p bytes d
  header : HeaderFound p bytes h
  rows : ∃ rows, CsvFile d rows h bytes ∧ List.Forall₂ (RowSays hash p) rows xs

/-- the bytes of a text -/
def txt (s : String) : List Nat := s.toList.map Char.toNat

end Verif.Spec.Text
