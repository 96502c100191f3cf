import Verif.Analyzer.Run
import Mathlib.Algebra.Field.Basic

/-!
# The Zipf fit of the trace analyzer

Models the second half of `Popularity::run` (traceAnalyzer/popularity.cpp), `PopularityUtils::slope` and the printing of the
result (traceAnalyzer/popularity.h).  Doubles are replaced by the elements of a field, so rounding is not modelled; `log` is
a parameter.
-/

namespace Verif.Analyzer

/-- `std::accumulate(x.begin(), x.end(), 0.0)`. -/
def total {F : Type} [Field F] (x : List F) : F := x.foldl (· + ·) 0

/-- `std::inner_product(x.begin(), x.end(), y.begin(), 0.0)`, for lists of the same length. -/
def inner {F : Type} [Field F] (x y : List F) : F := (List.zipWith (· * ·) x y).foldl (· + ·) 0

/-- `PopularityUtils::slope` (popularity.h lines 22-31). -/
def slope {F : Type} [Field F] (x y : List F) : F :=
  let n : F := (x.length : F)
  let sx := total x
  let sy := total y
  let sxx := inner x x
  let sxy := inner x y
  (n * sxy - sx * sy) / (n * sxx - sx * sx)

/-- The members of `Popularity` set by `run` (popularity.h lines 66-72): why the fit failed, if it did, as the number in the message, and the
numbers of the fit. -/
structure Fit (F : Type) where
  tooFew : Option Nat
  unpopular : Option Nat
  slope : F
  intercept : F
  r2 : F
  hasRun : Bool

/-- `Popularity::run` after the sort (popularity.cpp lines 55-85), on the sorted frequencies.  `freq_vec_[0]` exists: there are at least 200
objects. -/
def fit {F : Type} [Field F] (lg : Nat → F) (freq : List Nat) : Fit F :=
  if freq.length < 200 then { tooFew := some freq.length, unpopular := none, slope := -1, intercept := -1, r2 := -1, hasRun := false }
  else
    let logFreq := freq.map lg
    let logRank := (List.range freq.length).map (fun i => lg (i + 1))
    { tooFew := none
      unpopular := if freq.headD 0 < 200 then some (freq.headD 0) else none
      slope := - Analyzer.slope logRank logFreq
      intercept := -1, r2 := -1, hasRun := true }

/-- `operator<<` (popularity.h lines 42-57): the slope, intercept and R2 printed; `none` if a reason for the failure is printed
instead. -/
def Fit.printed {F : Type} (f : Fit F) : Option (F × F × F) :=
  if f.tooFew.isSome || f.unpopular.isSome then none else some (f.slope, f.intercept, f.r2)

end Verif.Analyzer
