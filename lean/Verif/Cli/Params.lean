import Verif.Cli.Args
import Verif.Reader.Text
/-!
# Trace types and trace parameters: libCacheSim/bin/cli_reader_utils.c
-/

namespace Verif.Cli
open Verif Verif.CLib

/-! ## Trace types -/

/-- the trace types that have a name on the command line or can be detected, enum.h:30-66 -/
inductive TraceType where
  | csv | bin | plainTxt | oracleGeneral | lcs | vscsi | twr | twrNS | cf1 | oracleGeneralOpNS | oracleSysTwrNS | oracleCF1 | oracleAkamai
  | oracleWiki16u | oracleWiki19u | valpin | unknown
deriving DecidableEq, Repr

/-- the names of `trace_type_str_to_enum`, cli_reader_utils.c:30-64 -/
def typeNames : List (List String × TraceType) :=
  [(["txt"], .plainTxt), (["csv"], .csv), (["binary"], .bin), (["lcs"], .lcs), (["twr"], .twr), (["twrNS"], .twrNS), (["vscsi"], .vscsi),
   (["CF1"], .cf1), (["oracleWiki16u"], .oracleWiki16u), (["oracleWiki19u"], .oracleWiki19u),
   (["oracleGeneralBin", "oracleGeneral"], .oracleGeneral), (["oracleGeneralOpNS"], .oracleGeneralOpNS), (["oracleAkamai"], .oracleAkamai),
   (["oracleCF1"], .oracleCF1), (["oracleSysTwrNS"], .oracleSysTwrNS), (["valpinTrace"], .valpin)]

/-- `detect_trace_type`, cli_reader_utils.c:186-220: a path of fewer than 13 characters that matches none of the first patterns is read in front
of its start -/
def detectType (path : Str) : Res TraceType :=
  if ioccurs (lit "oracleGeneralBin") path || ioccurs (lit "oracleGeneral.bin") path || ioccurs (lit "bin.oracleGeneral") path
    || ioccurs (lit "oracleGeneral.zst") path || ioccurs (lit "oracleGeneral.") path then .ok .oracleGeneral
  else if path.length < 13 then .error .outOfBounds
  else if ieq (path.drop (path.length - 13)) (lit "oracleGeneral") then .ok .oracleGeneral
  else if ioccurs (lit ".vscsi") path then .ok .vscsi
  else if ioccurs (lit "oracleGeneralOpNS") path then .ok .oracleGeneralOpNS
  else if ioccurs (lit "oracleCF1") path then .ok .oracleCF1
  else if ioccurs (lit "oracleAkamai") path then .ok .oracleAkamai
  else if ioccurs (lit "oracleWiki16u") path then .ok .oracleWiki16u
  else if ioccurs (lit "oracleWiki19u") path then .ok .oracleWiki19u
  else if ioccurs (lit ".twr.") path then .ok .twr
  else if ioccurs (lit ".twrNS.") path then .ok .twrNS
  else if ioccurs (lit "oracleSysTwrNS") path then .ok .oracleSysTwrNS
  else .ok .unknown

/-- `trace_type_str_to_enum`, cli_reader_utils.c:20-68: after a detection that succeeds, control falls to the last `return` -/
def typeOf (name path : Str) : Res TraceType :=
  if ieq name (lit "auto") then
    detectType path >>= fun t => if t = .unknown then .error .abort else .ok .unknown
  else match typeNames.find? (fun p => p.1.any (fun n => ieq name (lit n))) with
    | some p => .ok p.2
    | none => .error .abort

/-! ## Trace parameters -/

/-- `is_true`, cli_reader_utils.c:70-81 -/
def isTrue (s : Str) : Res Bool :=
  if ieq s (lit "true") || ieq s (lit "1") || ieq s (lit "yes") || ieq s (lit "y") then .ok true
  else if ieq s (lit "false") || ieq s (lit "0") || ieq s (lit "no") || ieq s (lit "n") then .ok false
  else .error .abort

/-- the digits `strtol(…, &end, 0)` reads behind the sign, with their base, and how many characters that are in all -/
def splitEnd (r : Str) : Option (Nat × Nat) :=
  match splitBase r with
  | none => none
  | some (b, ds) => some (digitsVal b ds, (if b = 16 then 2 else 0) + ds.length)

/-- `strtol(s, &end, 0)`: the value and the text at `end` -/
def strtol0 (s : Str) : Int × Str :=
  match s.dropWhile isSpace with
  | 45 :: r => match splitEnd r with | none => (0, s) | some (v, n) => (max (-(2 ^ 63)) (-(v : Int)), r.drop n)
  | 43 :: r => match splitEnd r with | none => (0, s) | some (v, n) => (min (2 ^ 63 - 1) (v : Int), r.drop n)
  | r => match splitEnd r with | none => (0, s) | some (v, n) => (min (2 ^ 63 - 1) (v : Int), r.drop n)

/-- `(int)x` of a `long` -/
def toInt32 (x : Int) : Int := (x + 2147483648) % 4294967296 - 2147483648

/-- `(int)strtol(value, &end, 0)` and the check of what follows the number, e.g. cli_reader_utils.c:114-116 -/
def column (value : Str) : Res Int := if (strtol0 value).2.length > 2 then .error .abort else .ok (toInt32 (strtol0 value).1)

/-- `reader_init_param_t`, reader.h:20-72, the fields set from the text -/
structure RParams where
  timeField : Int := 0
  idField : Int := 0
  sizeField : Int := 0
  cntField : Int := 0
  nextField : Int := 0
  idIsNum : Bool := false
  hasHeader : Bool := false
  hasHeaderSet : Bool := false
  format : Option Str := none
  delimiter : Nat := 0
deriving DecidableEq, Repr

/-- `delimiter`, cli_reader_utils.c:147-170 -/
def delimOf (value : Str) : Res Nat :=
  match value with
  | [] => .ok 44
  | [92] => .ok 44
  | [92, 116] => .ok 9
  | 92 :: _ :: _ => .error .abort
  | c :: _ => .ok c

/-- one parameter, cli_reader_utils.c:110-174.  The key has been cut at its `=`; `value` is NULL if there was none. -/
def setParam (p : RParams) (key : Str) (value : Option Str) : Res RParams :=
  let k := replaceChar key 95 45
  let is (n : String) := ieq k (lit n)
  let v : Res Str := match value with | none => .error .nullDeref | some v => .ok v
  if is "time-col" || is "time-field" then v >>= fun v => column v >>= fun n => .ok { p with timeField := n }
  else if is "obj-id-col" || is "obj-id-field" then v >>= fun v => column v >>= fun n => .ok { p with idField := n }
  else if is "obj-size-col" || is "obj-size-field" || is "size-col" || is "size-field" then
    v >>= fun v => column v >>= fun n => .ok { p with sizeField := n }
  else if is "cnt-col" || is "cnt-field" then v >>= fun v => column v >>= fun n => .ok { p with cntField := n }
  else if is "next-access-col" || is "next-access-field" then v >>= fun v => column v >>= fun n => .ok { p with nextField := n }
  else if is "obj-id-is-num" then v >>= fun v => isTrue v >>= fun b => .ok { p with idIsNum := b }
  else if is "header" || is "has-header" then v >>= fun v => isTrue v >>= fun b => .ok { p with hasHeader := b, hasHeaderSet := true }
  else if is "format" then v >>= fun v => .ok { p with format := some v }
  else if is "delimiter" then v >>= fun v => delimOf v >>= fun c => .ok { p with delimiter := c }
  else .error .abort

/-- the loop of `parse_reader_params`, cli_reader_utils.c:99-175 -/
def paramsLoop : Nat → Option Str → RParams → Res RParams
  | 0, _, _ => .error .diverge
  | _ + 1, none, p => .ok p
  | _ + 1, some [], p => .ok p
  | fuel + 1, some (c :: s), p =>
    let key := (strsep 61 (c :: s)).1
    let value : Option (Str × Option Str) := (strsep 61 (c :: s)).2.map (strsep 44)
    let rest : Option Str := (value.bind (·.2)).map (List.dropWhile (fun x => decide (x = 32 ∨ x = 44)))
    setParam p key (value.map (·.1)) >>= paramsLoop fuel rest

/-- `parse_reader_params`, cli_reader_utils.c:89-178, on parameters that are zero (callers use `memset`) -/
def parseParams (text : Option Str) : Res RParams :=
  match text with
  | none => .ok {}
  | some s => paramsLoop (s.length + 1) (some s) {}

/-- cli_parser.c:316-322: for text traces without a size column the sizes are to be ignored -/
def sizeIgnored (t : TraceType) (ignoreSize : Bool) (p : RParams) : Bool :=
  ignoreSize || (decide (t = .csv ∨ t = .plainTxt) && decide (p.sizeField = -1))

/-- `reader_init_params` of a text trace, cli_parser.c:302-322 (`cachesim`) and cli_reader_utils.c:303-311 (the other programs, where `sizeIgnored`
is not consulted) -/
def textParams (ignoreSize : Bool) (nReq : Int) (p : RParams) : Text.Params :=
  { ignoreSize := ignoreSize, ignoreZero := true, idIsNum := p.idIsNum, cap := nReq, timeField := p.timeField, idField := p.idField, sizeField := p.sizeField, cntField := p.cntField, hasHeader := p.hasHeader, hasHeaderSet := p.hasHeaderSet, delimiter := p.delimiter }

/-- whether `create_reader` samples, cli_reader_utils.c:299 and 313: the ratio is an `int` parameter -/
def samples (ratio : Rat) : Bool :=
  let r : Rat := ((if ratio < 0 then -((-ratio).floor) else ratio.floor : Int) : Rat)
  decide (0 < r ∧ r < 1 - 1 / 1000000)

end Verif.Cli
