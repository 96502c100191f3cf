import Verif.Reader.Reader
import Verif.Cli.Str
/-!
# libCacheSim/bin/traceUtils/tracePrintMain.cpp: printing a trace as text

A reader is the list of the requests it delivers.
-/

namespace Verif.TracePrint
open Verif Verif.Reader Verif.Cli

/-- the options, traceUtils/internal.hpp:30-36 -/
structure Opts where
  idOnly : Bool := false
  id32 : Bool := false
  delimiter : Nat := 44
deriving DecidableEq, Repr

/-- `%ld` and `%d` -/
def signedText (n : Int) : Str := if n < 0 then 45 :: decText n.natAbs else decText n.natAbs

/-- `(int)x` -/
def asInt (x : Int) : Int := (x + 2147483648) % 4294967296 - 2147483648

/-- tracePrintMain.cpp:29-31 -/
def shownId (o : Opts) (q : Request) : Nat := if o.id32 then (q.vals .id).toNat % 4294967296 else (q.vals .id).toNat

/-- one line, tracePrintMain.cpp:33-44 -/
def row (o : Opts) (next : Bool) (q : Request) : Str :=
  if o.idOnly then decText (shownId o q) ++ [10]
  else signedText (q.vals .time) ++ o.delimiter :: (decText (shownId o q) ++ o.delimiter :: (signedText (asInt (q.vals .size)) ++
    (if next then o.delimiter :: (signedText (q.vals .next) ++ [10]) else [10])))

/-- `trace_has_next_access_vtime`, tracePrintMain.cpp:15-18: decided by the first request; if there is none, by a new one -/
def hasNext (qs : List Request) : Bool := decide ((qs.headD newRequest).vals .next ≠ -2)

/-- tracePrintMain.cpp:20-26 -/
def header (o : Opts) (next : Bool) : Str :=
  if o.idOnly then [] else if next then lit "# time,object,size,next_access_vtime" ++ [10] else lit "# time,object,size" ++ [10]

/-- `main`, tracePrintMain.cpp:10-50: what is printed -/
def print (o : Opts) (qs : List Request) : Str := header o (hasNext qs) ++ qs.flatMap (row o (hasNext qs))

end Verif.TracePrint
