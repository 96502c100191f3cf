import Verif.Reader.LibCsv
/-!
# What a CSV file says

Independent of the parser: how fields, rows and files are written.
-/

namespace Verif.Spec.Csv
open Verif.Csv (Ev)

/-- the blank characters, of which any number may surround a field -/
def Blanks (delim : Nat) (b : List Nat) : Prop := ∀ c ∈ b, (c = 32 ∨ c = 9) ∧ c ≠ delim

/-- a field that needs no quotes: no delimiter, quote or line end, no blank at either end -/
def PlainField (delim quote : Nat) (f : List Nat) : Prop :=
  (∀ c ∈ f, c ≠ delim ∧ c ≠ quote ∧ c ≠ 13 ∧ c ≠ 10) ∧ (∀ c, f.head? = some c ∨ f.getLast? = some c → c ≠ 32 ∧ c ≠ 9)

/-- every quote character doubled -/
def doubled (quote : Nat) (f : List Nat) : List Nat := f.flatMap (fun c => if c = quote then [quote, quote] else [c])

/-- `text` is a way to write the field `f` -/
inductive Written (delim quote : Nat) (f : List Nat) : List Nat → Prop
  | plain {b b' : List Nat} : PlainField delim quote f → Blanks delim b → Blanks delim b' → Written delim quote f (b ++ f ++ b')
  | quoted {b b' : List Nat} : Blanks delim b → Blanks delim b' → Written delim quote f (b ++ (quote :: doubled quote f ++ [quote]) ++ b')

/-- `text` is a way to write the fields of a row, at least one, separated by the delimiter -/
inductive WrittenRow (delim quote : Nat) : List (List Nat) → List Nat → Prop
  | one {f t : List Nat} : Written delim quote f t → WrittenRow delim quote [f] t
  | cons {f t : List Nat} {fs : List (List Nat)} {ts : List Nat} : Written delim quote f t → WrittenRow delim quote fs ts →
      WrittenRow delim quote (f :: fs) (t ++ delim :: ts)

/-- the ends of a line -/
def LineEnd (e : List Nat) : Prop := e = [10] ∨ e = [13, 10]

/-- usable delimiter and quote characters -/
def Chars (delim quote : Nat) : Prop := delim ≠ quote ∧ delim ≠ 13 ∧ delim ≠ 10 ∧ quote ≠ 13 ∧ quote ≠ 10 ∧ quote ≠ 32 ∧ quote ≠ 9

/-- what the parser reports for a row -/
def rowEvents (fs : List (List Nat)) (c : Int) : List Ev := fs.map .field ++ [.row c]

end Verif.Spec.Csv

namespace Verif.Spec.Csv

/-- a number in decimal notation, as bytes -/
def dec (n : Nat) : List Nat := if n < 10 then [48 + n] else dec (n / 10) ++ [48 + n % 10]
termination_by n
decreasing_by omega

/-- a digit -/
def Digit (c : Nat) : Prop := 48 ≤ c ∧ c ≤ 57

/-- the number written by some digits -/
def number (s : List Nat) : Nat := s.foldl (fun a c => 10 * a + (c - 48)) 0

/-- a time stamp: a whole number or a number with decimals, in all fewer than 2^53 when the point is left out (a `double` holds it exactly enough) -/
inductive TimeText (t : Nat) : List Nat → Prop
  | whole : t < 2 ^ 53 → TimeText t (dec t)
  | decimals {g : List Nat} : (∀ c ∈ g, Digit c) → number (dec t ++ g) < 2 ^ 53 → TimeText t (dec t ++ 46 :: g)

end Verif.Spec.Csv

namespace Verif.Spec.Csv
open Verif.Csv (Parser Ev)

/-- a CSV text: rows that are not blank, each with a line end; the last one may lack it.  Quoted fields may contain line ends. -/
inductive CsvText (delim quote : Nat) : List (List (List Nat)) → List Nat → Prop
  | nil : CsvText delim quote [] []
  | last {fs : List (List Nat)} {t : List Nat} : WrittenRow delim quote fs t → ¬ Blanks delim t → CsvText delim quote [fs] t
  | cons {fs : List (List Nat)} {t e : List Nat} {rows : List (List (List Nat))} {rest : List Nat} :
      WrittenRow delim quote fs t → ¬ Blanks delim t → LineEnd e → CsvText delim quote rows rest → CsvText delim quote (fs :: rows) ((t ++ e) ++ rest)

/-- the rows a client has been told of by the callbacks, `acc` being the fields of the current row; `none` if a row was begun and not ended -/
def rowsTold : List (List Nat) → List Ev → Option (List (List (List Nat)))
  | [], [] => some []
  | _ :: _, [] => none
  | acc, .field f :: es => rowsTold (acc ++ [f]) es
  | acc, .row _ :: es => (rowsTold [] es).map (acc :: ·)

/-- the states of a parser: made by `csv_init`, then any calls of `csv_parse` and `csv_fini` -/
inductive Called (p0 : Parser) : Parser → Prop
  | init : Called p0 p0
  | parse {p p' : Parser} {s : List Nat} {es : List Ev} : Called p0 p → Verif.Csv.parse p s = .ok (es, p') → Called p0 p'
  | fini {p p' : Parser} {es : List Ev} : Called p0 p → Verif.Csv.fini p = .ok (es, p') → Called p0 p'

/-- the text handed to `csv_parse` in pieces -/
def parseChunks (p : Parser) : List (List Nat) → Res (List Ev × Parser)
  | [] => .ok ([], p)
  | s :: ss => Verif.Csv.parse p s >>= fun r => parseChunks r.2 ss >>= fun t => .ok (r.1 ++ t.1, t.2)

/-- texts with a separator between them -/
def joined (delim : Nat) : List (List Nat) → List Nat
  | [] => []
  | [t] => t
  | t :: ts => t ++ delim :: joined delim ts

end Verif.Spec.Csv
