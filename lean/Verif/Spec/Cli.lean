import Verif.Cli.Params
import Verif.Cli.Sim
import Verif.Spec.Csv
import Verif.Spec.Simulator
/-!
# What the command line means

Independent of how the programs take the text apart: how sizes, lists and trace parameters are written, and what they stand for.
-/

namespace Verif.Spec.Cli
open Verif Verif.Cli Verif.Spec.Csv

/-- the same text in any mixture of capital and small letters -/
def AnyCase (s t : Str) : Prop := s.map lower = t.map lower

/-- the units: what may follow the digits (in small letters) and what it multiplies the number by -/
def units : List (Str × Nat) :=
  [(lit "", 1), (lit "k", 1024), (lit "kb", 1024), (lit "m", 1024 ^ 2), (lit "mb", 1024 ^ 2), (lit "g", 1024 ^ 3), (lit "gb", 1024 ^ 3),
   (lit "t", 1024 ^ 4), (lit "tb", 1024 ^ 4)]

/-- `s` is a number of bytes with a unit, and says `n` -/
inductive SizeText (n : Nat) : Str → Prop
  | mk {ds u v : Str} {f : Nat} : ds ≠ [] → (∀ c ∈ ds, Digit c) → (v, f) ∈ units → AnyCase u v → n = number ds * f → SizeText n (ds ++ u)

/-- `s` is a number with a decimal point, and says `x` -/
inductive FractionText (x : Rat) : Str → Prop
  | mk {a b : Str} : (∀ c ∈ a, Digit c) → (∀ c ∈ b, Digit c) → x = (number (a ++ b) : Nat) / (10 : Rat) ^ b.length → FractionText x (a ++ 46 :: b)

/-- texts with commas between them -/
def commas (l : List Str) : Str := List.intercalate [44] l

/-- the size nearest below a fraction of `n`, allowing for the rounding of the two `double` operations: off by less than 2 -/
def AboutFraction (x : Rat) (n z : Nat) : Prop := (z : Rat) < x * n + 1 ∧ x * n < z + 2

/-- the fractions of the working set that are tried when no size is given -/
def autoFractions : List Rat := [1 / 1000, 3 / 1000, 10 / 1000, 30 / 1000, 100 / 1000, 200 / 1000, 400 / 1000, 800 / 1000]

/-- the number of objects from which a fraction of the working set is worth simulating -/
def worthwhile (ignoreSize : Bool) : Nat := if ignoreSize then 5 else 100

/-- the first request to each object, in the order of the trace -/
def firsts (l : List Simulator.Item) : List Simulator.Item :=
  (l.zipIdx.filter (fun p => decide (p.1.req.id ∉ (l.take p.2).map (fun it => it.req.id)))).map Prod.fst

/-- a name without hyphens and underscores, in small letters -/
def plain (s : Str) : Str := (s.filter (fun c => c ≠ 45 ∧ c ≠ 95)).map lower

/-- names that are not those of the algorithm that is created -/
def synonyms : List (String × String) := [("2q", "TwoQ"), ("fifo-reinsertion", "Clock"), ("second-chance", "Clock"), ("tinyLFU", "WTinyLFU")]

/-! ## Trace parameters -/

/-- one trace parameter: a column, whether ids are numbers, whether there is a header, the format of a record, the delimiter -/
inductive Setting where
  | time (n : Int)
  | id (n : Int)
  | size (n : Int)
  | cnt (n : Int)
  | next (n : Int)
  | idIsNum (b : Bool)
  | header (b : Bool)
  | format (f : Str)
  | delimiter (c : Nat)
deriving DecidableEq, Repr

/-- the names of a parameter -/
def Setting.names : Setting → List String
  | .time _ => ["time-col", "time-field"]
  | .id _ => ["obj-id-col", "obj-id-field"]
  | .size _ => ["obj-size-col", "obj-size-field", "size-col", "size-field"]
  | .cnt _ => ["cnt-col", "cnt-field"]
  | .next _ => ["next-access-col", "next-access-field"]
  | .idIsNum _ => ["obj-id-is-num"]
  | .header _ => ["header", "has-header"]
  | .format _ => ["format"]
  | .delimiter _ => ["delimiter"]

/-- the parameters with one more setting, which replaces an earlier one -/
def Setting.apply (p : RParams) : Setting → RParams
  | .time n => { p with timeField := n }
  | .id n => { p with idField := n }
  | .size n => { p with sizeField := n }
  | .cnt n => { p with cntField := n }
  | .next n => { p with nextField := n }
  | .idIsNum b => { p with idIsNum := b }
  | .header b => { p with hasHeader := b, hasHeaderSet := true }
  | .format f => { p with format := some f }
  | .delimiter c => { p with delimiter := c }

/-- a name in any mixture of capital and small letters, with `_` or `-` between the words -/
def NameText (name : String) (k : Str) : Prop := AnyCase (k.map (fun c => if c = 95 then 45 else c)) (lit name)

/-- a column number -/
inductive ColumnText : Int → Str → Prop
  | plus {n : Nat} : n < 2 ^ 31 → ColumnText n (dec n)
  | minus {n : Nat} : n ≤ 2 ^ 31 → ColumnText (-n) (45 :: dec n)

/-- yes or no -/
def BoolText (b : Bool) (v : Str) : Prop := ∃ t ∈ (if b then ["true", "1", "yes", "y"] else ["false", "0", "no", "n"]), AnyCase v (lit t)

/-- a delimiter: the character itself; nothing or a backslash (before the comma that is to follow) for the comma; backslash and t for the tab -/
inductive DelimiterText : Nat → Str → Prop
  | char {c : Nat} : c ≠ 44 → c ≠ 92 → DelimiterText c [c]
  | comma : DelimiterText 44 []
  | escapedComma : DelimiterText 44 [92]
  | tab : DelimiterText 9 [92, 116]

/-- `v` is the value of a setting -/
def ValueText : Setting → Str → Prop
  | .time n, v => ColumnText n v
  | .id n, v => ColumnText n v
  | .size n, v => ColumnText n v
  | .cnt n, v => ColumnText n v
  | .next n, v => ColumnText n v
  | .idIsNum b, v => BoolText b v
  | .header b, v => BoolText b v
  | .format f, v => v = f ∧ 44 ∉ f
  | .delimiter c, v => DelimiterText c v

/-- a setting: name, equals sign, value -/
inductive SettingText (s : Setting) : Str → Prop
  | mk {name : String} {k v : Str} : name ∈ s.names → NameText name k → ValueText s v → SettingText s (k ++ 61 :: v)

/-- between two settings: a comma, then any blanks and commas -/
inductive Gap : Str → Prop
  | mk {b : Str} : (∀ c ∈ b, c = 32 ∨ c = 44) → Gap (44 :: b)

/-- settings one after the other -/
inductive ParamText : List Setting → Str → Prop
  | nil : ParamText [] []
  | last {s : Setting} {t : Str} : SettingText s t → ParamText [s] t
  | cons {s : Setting} {t g r : Str} {l : List Setting} : SettingText s t → Gap g → ParamText l r → ParamText (s :: l) (t ++ (g ++ r))

/-! ## Running one cache -/

/-- the requests more than `warm` seconds after the first, each with the answer of the cache -/
def measured (warm : Int) (tr : List Simulator.Item) (answers : List Bool) : List (Simulator.Item × Bool) :=
  (tr.zip answers).filter (fun x => decide (warm < x.1.time - Sim.startOf tr))

/-- those of them that were answered with a miss -/
def misses (m : List (Simulator.Item × Bool)) : List (Simulator.Item × Bool) := m.filter (fun x => !x.2)

/-- the bytes they asked for -/
def bytes (m : List (Simulator.Item × Bool)) : Nat := (m.map (fun x => x.1.req.size)).sum

/-- the progress reports of a run over the measured requests `m` of a trace that starts at `start` -/
structure GoodReports (interval warm start : Int) (m : List (Simulator.Item × Bool)) (rs : List Report) : Prop where
  /-- a report is made at a measured request, with the number of requests and of misses up to it -/
  real : ∀ r ∈ rs, ∃ i x, m[i]? = some x ∧ r.clock = x.1.time - start ∧ r.req = i + 1 ∧ r.miss = (misses (m.take (i + 1))).length
  /-- the numbers since the report before -/
  first : ∀ r, rs.head? = some r → r.dReq = r.req ∧ r.dMiss = r.miss
  delta : ∀ i q r, rs[i]? = some q → rs[i + 1]? = some r → r.dReq = r.req - q.req ∧ r.dMiss = r.miss - q.miss
  /-- reports are at least `interval` seconds apart, and from the end of the warm-up -/
  order : rs.Pairwise (fun a b => a.req < b.req ∧ a.clock + interval ≤ b.clock)
  early : ∀ r ∈ rs, warm + interval ≤ r.clock
  /-- no report is left out: each measured request with a time other than 0 and past the first interval is reported, or is less than `interval`
  seconds after a report before it -/
  complete : ∀ i x, m[i]? = some x → x.1.time ≠ start → warm + interval ≤ x.1.time - start →
    ∃ r ∈ rs, r.req = i + 1 ∨ (r.req ≤ i ∧ x.1.time - start < r.clock + interval)

end Verif.Spec.Cli
