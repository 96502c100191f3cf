import Verif.Cli.Str
import Verif.Base.CacheBase
/-!
# The command line of cachesim: libCacheSim/bin/cachesim/cli_parser.c, cache_init.h and libCacheSim/utils/mystr.c

`argp` itself, messages and the options that are only copied are not modelled.
-/

namespace Verif.Cli
open Verif Verif.CLib

/-! ## Sizes -/

/-- const.h:51-54 -/
def KiB : Nat := 1024
def MiB : Nat := 1048576
def GiB : Nat := 1073741824
def TiB : Nat := 1099511627776

/-- the last character, `s[strlen(s) - 1]`, is the letter `c` or its capital `C` -/
def endsIn (c C : Nat) (s : Str) : Bool := s.getLast? == some c || s.getLast? == some C

/-- `conv_size_str_to_byte_ul`, cli_parser.c:395-422; products wrap at 2^64.  The text is not empty (`strtok` returns no empty token). -/
def convSize (s : Str) : Nat :=
  if ieq s (lit "auto") then 0
  else if ioccurs (lit "kb") s || endsIn 107 75 s then strtoul10 s * KiB % 2 ^ 64
  else if ioccurs (lit "mb") s || endsIn 109 77 s then strtoul10 s * MiB % 2 ^ 64
  else if ioccurs (lit "gb") s || endsIn 103 71 s then strtoul10 s * GiB % 2 ^ 64
  else if ioccurs (lit "tb") s || endsIn 116 84 s then strtoul10 s * TiB % 2 ^ 64
  else ((if strtol10 s = -1 then 0 else strtol10 s) % 2 ^ 64).toNat

/-- `N_MAX_CACHE_SIZE`, internal.h:19 -/
def maxSizes : Nat := 128

/-- what `conv_cache_sizes` and `set_cache_size` look at: `ignore_obj_size` and what `cal_working_set_size` finds in the trace.  (It reads the
trace from its start and leaves the reader there, cli_reader_utils.c:245-284, so calling it again gives the same.) -/
structure Wss where
  ignoreSize : Bool
  obj : Nat
  byte : Nat
deriving DecidableEq, Repr

/-- `wss`, cli_parser.c:444 and 472 -/
def Wss.wss (w : Wss) : Nat := if w.ignoreSize then w.obj else w.byte

/-- one token of the list, cli_parser.c:439-449 -/
def tokenSize (rd : Rat → Rat) (w : Wss) (tok : Str) : Res Nat :=
  if 46 ∈ tok then toU64 (rd (rd (w.wss : Nat) * rd (atofRat tok))) else .ok (convSize tok)

/-- the loop of `conv_cache_sizes`, cli_parser.c:435-452; a 129th size is written behind the array -/
def sizesLoop (rd : Rat → Rat) (w : Wss) : Nat → Str → List Nat → Res (List Nat)
  | 0, _, _ => .error .diverge
  | fuel + 1, s, acc =>
    match strtok 44 s with
    | none => .ok acc
    | some (tok, rest) =>
      tokenSize rd w tok >>= fun v =>
      if acc.length < maxSizes then sizesLoop rd w fuel rest (acc ++ [v]) else .error .outOfBounds

/-- the fractions of `set_cache_size`, cli_parser.c:473 -/
def fractions : List Rat := [1 / 1000, 3 / 1000, 1 / 100, 3 / 100, 1 / 10, 2 / 10, 4 / 10, 8 / 10]

/-- the loop of `set_cache_size`, cli_parser.c:474-485 -/
def autoList (rd : Rat → Rat) (w : Wss) : List Nat :=
  fractions.filterMap (fun f =>
    if (if w.ignoreSize then decide (toLong (rd (rd (w.obj : Nat) * rd f)) > 4) else decide (toLong (rd (rd (w.obj : Nat) * rd f)) ≥ 100))
    then some (toLong (rd (rd (w.wss : Nat) * rd f))) else none)

/-- `set_cache_size`, cli_parser.c:461-491: no size at all ends the program -/
def autoSizes (rd : Rat → Rat) (w : Wss) : Res (List Nat) := if autoList rd w = [] then .error .abort else .ok (autoList rd w)

/-- `conv_cache_sizes`, cli_parser.c:434-459 -/
def convSizes (rd : Rat → Rat) (w : Wss) (s : Str) : Res (List Nat) :=
  sizesLoop rd w (s.length + 1) s [] >>= fun l => if l = [0] then autoSizes rd w else .ok l

/-! ## Names of eviction algorithms -/

/-- `N_MAX_ALGO`, internal.h:18 -/
def maxAlgos : Nat := 16

/-- the loop of `parse_eviction_algo`, cli_parser.c:376-382; a 17th name is written behind the array -/
def algosLoop : Nat → Option Str → List Str → Res (List Str)
  | 0, _, _ => .error .diverge
  | _ + 1, none, acc => .ok acc
  | _ + 1, some [], acc => .ok acc
  | fuel + 1, some (c :: s), acc =>
    if acc.length < maxAlgos then algosLoop fuel (strsep 44 (c :: s)).2 (acc ++ [(strsep 44 (c :: s)).1]) else .error .outOfBounds

/-- `parse_eviction_algo`, cli_parser.c:369-385: the text is copied to a buffer of 4096 bytes that starts with zeroes -/
def parseAlgos (arg : Str) : Res (List Str) := if arg.length < 4096 then algosLoop (arg.length + 1) (some arg) [] else .error .outOfBounds

/-- the names and the functions of `create_cache`, cache_init.h:28-162, in the order of the code, without the ones a build must ask for
(`ENABLE_GLCACHE`, `ENABLE_LRB`, `INCLUDE_PRIV`) -/
def algorithms : List (List String × String) :=
  [(["lru"], "LRU_init"), (["fifo"], "FIFO_init"), (["arc"], "ARC_init"), (["arcv0"], "ARCv0_init"), (["lhd"], "LHD_init"),
   (["random"], "Random_init"), (["randomTwo"], "RandomTwo_init"), (["lfu"], "LFU_init"), (["gdsf"], "GDSF_init"), (["lfuda"], "LFUDA_init"),
   (["twoq", "2q"], "TwoQ_init"), (["slru"], "SLRU_init"), (["slruv0"], "SLRUv0_init"), (["hyperbolic"], "Hyperbolic_init"),
   (["lecar"], "LeCaR_init"), (["lecarv0"], "LeCaRv0_init"), (["RandomLRU"], "RandomLRU_init"), (["cacheus"], "Cacheus_init"),
   (["size"], "Size_init"), (["lfucpp"], "LFUCpp_init"), (["tinyLFU"], "WTinyLFU_init"), (["wtinyLFU"], "WTinyLFU_init"),
   (["belady"], "Belady_init"), (["nop"], "nop_init"), (["beladySize"], "BeladySize_init"),
   (["fifo-reinsertion", "clock", "second-chance"], "Clock_init"), (["lirs"], "LIRS_init"), (["fifomerge", "fifo-merge"], "FIFO_Merge_init"),
   (["flashProb"], "flashProb_init"), (["sfifo"], "SFIFO_init"), (["sfifov0"], "SFIFOv0_init"), (["lru-prob"], "LRU_Prob_init"),
   (["fifo-belady"], "FIFO_Belady_init"), (["lru-belady"], "LRU_Belady_init"), (["sieve-belady"], "Sieve_Belady_init"),
   (["s3lru"], "S3LRU_init"), (["s3fifo", "s3-fifo"], "S3FIFO_init"), (["s3fifod"], "S3FIFOd_init"), (["qdlp"], "QDLP_init"),
   (["sieve"], "Sieve_init")]

/-- what `create_cache` calls: the function, the size and the parameter text -/
structure Call where
  init : String
  size : Nat
  params : Option Str
deriving DecidableEq, Repr

/-- `create_cache`, cache_init.h:15-165.  The size of the hash table and the object metadata flag are left out. -/
def createCache (path name : Str) (size : Nat) (params : Option Str) : Res Call :=
  match algorithms.find? (fun p => p.1.any (fun n => ieq name (lit n))) with
  | none => .error .abort
  | some p =>
    if p.1 = ["belady"] ∧ ¬ ioccurs (lit "oracleGeneral") path then .error .abort
    else if p.1 = ["tinyLFU"] then
      .ok ⟨p.2, size, params.map (fun q => if occurs (lit "window-size=") q then q else q ++ lit ",window-size=0.01")⟩
    else .ok ⟨p.2, size, params⟩

/-- the loops of `parse_cmd` over the algorithms and sizes, cli_parser.c:340-357: the caches in the order of their index -/
def createCaches (path : Str) (names : List Str) (sizes : List Nat) (params : Option Str) : Res (List Call) :=
  names.foldlM (fun acc n => sizes.foldlM (fun acc z => createCache path n z params >>= fun c => .ok (acc ++ [c])) acc) []

/-! ## Text utilities -/

/-- `replace_char`, mystr.c:50-57 -/
def replaceChar (s : Str) (find repl : Nat) : Str := s.map (fun c => if c = find then repl else c)

/-- `mybasename`, mystr.c:59-65 -/
def basename (path : Str) : Str := match strrchr path 47 with | none => path | some i => path.drop (i + 1)

/-- `%.0lf` of `(double)a / b` for a power of two `b`: to the nearest integer, ties to even -/
def roundHalfEven (a b : Nat) : Nat := if 2 * (a % b) > b ∨ (2 * (a % b) = b ∧ a / b % 2 = 1) then a / b + 1 else a / b

/-- `convert_size_to_str`, mystr.c:20-32 -/
def sizeStr (size : Nat) : Str :=
  if size ≥ TiB then decText (roundHalfEven (dblNat size) TiB) ++ lit "TiB"
  else if size ≥ GiB then decText (roundHalfEven (dblNat size) GiB) ++ lit "GiB"
  else if size ≥ MiB then decText (roundHalfEven (dblNat size) MiB) ++ lit "MiB"
  else if size ≥ KiB then decText (roundHalfEven (dblNat size) KiB) ++ lit "KiB"
  else decText size ++ lit "B"

/-- `convert_size_to_str` into the 8 bytes its callers give it (sim.c:78, simulator.c:212 and 291) -/
def sizeStr8 (size : Nat) : Res Str := if (sizeStr size).length < 8 then .ok (sizeStr size) else .error .outOfBounds

/-- the output path, cli_parser.c:141 and 292-296: `strncpy` of the option into 128 bytes writes no terminator if the text has 128 characters or
more, and the text is then read as a string; without the option, `snprintf` cuts the name off -/
def outputPath (opt : Option Str) (tracePath : Str) : Res Str :=
  match opt with
  | some (c :: s) => if (c :: s).length < 128 then .ok (c :: s) else .error .outOfBounds
  | _ => .ok ((basename tracePath ++ lit ".cachesim").take 127)

end Verif.Cli
