import Verif.Proof.CliParams
import Verif.Props.Demo
/-!
# C68, C69: trace parameters and trace types on the command line
-/

set_option maxRecDepth 20000

namespace Verif.Cli
open Verif Verif.CLib Verif.Spec.Csv Verif.Spec.Cli

/-- settings separated by commas and blanks, with names in any case and with `-` or `_`, are all in force; the last one for the same name
counts -/
theorem C68_params {l : List Setting} {t : Str} (h : ParamText l t) : parseParams (some t) = .ok (l.foldl Setting.apply {}) :=
  paramsLoop_spec l t h _ _ (Nat.lt_succ_self _)

/-- with no text at all nothing is set -/
theorem C68_none : parseParams none = .ok {} := rfl

/-- a name that is none of the documented ones ends the program, whatever its value and whatever has been set -/
theorem C68_unknown {k : Str} (h : ∀ s : Setting, ∀ name ∈ s.names, ¬ NameText name k) (p : RParams) (v : Option Str) : setParam p k v = .error .abort := by
  have e : ∀ (s : Setting) (n : String), n ∈ s.names → ieq (replaceChar k 95 45) (lit n) = false := by
    intro s n hn
    rw [Bool.eq_false_iff]
    intro hc
    exact h s n hn (ieq_iff.1 hc)
  unfold setParam
  simp only [e (.time 0) "time-col" (by decide), e (.time 0) "time-field" (by decide), e (.id 0) "obj-id-col" (by decide),
    e (.id 0) "obj-id-field" (by decide), e (.size 0) "obj-size-col" (by decide), e (.size 0) "obj-size-field" (by decide),
    e (.size 0) "size-col" (by decide), e (.size 0) "size-field" (by decide), e (.cnt 0) "cnt-col" (by decide), e (.cnt 0) "cnt-field" (by decide),
    e (.next 0) "next-access-col" (by decide), e (.next 0) "next-access-field" (by decide), e (.idIsNum true) "obj-id-is-num" (by decide),
    e (.header true) "header" (by decide), e (.header true) "has-header" (by decide), e (.format []) "format" (by decide),
    e (.delimiter 0) "delimiter" (by decide), Bool.false_or, Bool.false_eq_true, if_false]

/-- the last comma is the delimiter -/
example : ParamText [.time 1, .id 2, .size 3, .delimiter 44] (lit "time-col=1, obj_id_col=2,OBJ-SIZE-COL=3,delimiter=,") := by
  have d1 : dec 1 = [49] := by unfold dec; rfl
  have d2 : dec 2 = [50] := by unfold dec; rfl
  have d3 : dec 3 = [51] := by unfold dec; rfl
  have c1 : ColumnText 1 (dec 1) := ColumnText.plus (n := 1) (by decide)
  have c2 : ColumnText 2 (dec 2) := ColumnText.plus (n := 2) (by decide)
  have c3 : ColumnText 3 (dec 3) := ColumnText.plus (n := 3) (by decide)
  rw [d1] at c1
  rw [d2] at c2
  rw [d3] at c3
  refine ParamText.cons (s := .time 1) (t := lit "time-col" ++ 61 :: [49]) (g := [44, 32]) (r := _) (.mk (name := "time-col") (by decide) (by unfold NameText AnyCase; decide +kernel) c1) (.mk (by simp)) ?_
  refine ParamText.cons (s := .id 2) (t := lit "obj_id_col" ++ 61 :: [50]) (g := [44]) (r := _) (.mk (name := "obj-id-col") (by decide) (by unfold NameText AnyCase; decide +kernel) c2) (.mk (by simp)) ?_
  refine ParamText.cons (s := .size 3) (t := lit "OBJ-SIZE-COL" ++ 61 :: [51]) (g := [44]) (r := _) (.mk (name := "obj-size-col") (by decide) (by unfold NameText AnyCase; decide +kernel) c3) (.mk (by simp)) ?_
  exact ParamText.cons (s := .delimiter 44) (t := lit "delimiter" ++ 61 :: []) (g := [44]) (r := []) (.mk (name := "delimiter") (by decide) (by unfold NameText AnyCase; decide +kernel) DelimiterText.comma) (.mk (by simp)) .nil

example : parseParams (some (lit "time-col=1, obj_id_col=2,OBJ-SIZE-COL=3,delimiter=,")) = .ok { timeField := 1, idField := 2, sizeField := 3, delimiter := 44 } := by
  decide +kernel

/-- a name without a value is read through a NULL pointer instead of being reported -/
theorem C68_noValue_fails : parseParams (some (lit "time-col")) = .error .nullDeref ∧ parseParams (some (lit "header")) = .error .nullDeref := by
  refine ⟨?_, ?_⟩ <;> decide +kernel

/-- two characters behind a column number are not noticed, nor is a value of two letters, which becomes column 0; one character more ends the
program -/
theorem C68_garbage_fails : parseParams (some (lit "time-col=1ab")) = .ok { timeField := 1 } ∧ parseParams (some (lit "time-col=ab")) = .ok { timeField := 0 } ∧
    parseParams (some (lit "time-col=1abc")) = .error .abort := by
  refine ⟨?_, ?_, ?_⟩ <;> decide +kernel

/-- a column written with a leading zero is read as octal, so 010 is column 8 -/
theorem C68_octal_fails : parseParams (some (lit "time-col=010")) = .ok { timeField := 8 } := by decide +kernel

/-- the example in the help text of the program, whose settings are separated by a semicolon, ends the program -/
theorem C68_semicolon_fails : parseParams (some (lit "obj-id-col=1;delimiter=,")) = .error .abort := by decide +kernel

/-- blanks in front of the first name are not skipped, although those in front of the later ones are -/
theorem C68_leadingBlank_fails : parseParams (some (lit " time-col=1")) = .error .abort ∧
    parseParams (some (lit "header=1, time-col=1")) = .ok { timeField := 1, hasHeader := true, hasHeaderSet := true } := by
  refine ⟨?_, ?_⟩ <;> decide +kernel

/-- the sizes of a text trace are ignored only if the size column is set to −1: leaving the column out, so that the trace has no sizes, does not
count -/
theorem C68_noSizeColumn_fails (t : TraceType) {l : List Setting} (h : ∀ n, Setting.size n ∉ l) : sizeIgnored t false (l.foldl Setting.apply {}) = false := by
  have key : ∀ (l : List Setting) (p : RParams), (∀ n, Setting.size n ∉ l) → (l.foldl Setting.apply p).sizeField = p.sizeField := by
    intro l
    induction l with
    | nil => intro p _; rfl
    | cons s l ih =>
      intro p h
      rw [List.foldl_cons, ih _ (fun n hn => h n (List.mem_cons_of_mem _ hn))]
      cases s with
      | size n => exact absurd (List.mem_cons_self ..) (h n)
      | _ => rfl
  unfold sizeIgnored
  rw [key l {} h]
  simp

example : ∀ n, Setting.size n ∉ [Setting.time 1, .id 2, .header true] := by intro n; simp

/-! ## Trace types -/

/-- every name of a trace type is accepted in any mixture of capital and small letters, and the path does not matter -/
theorem C69_names {k path : Str} {ns : List String} {t : TraceType} (hm : (ns, t) ∈ typeNames) {name : String} (hn : name ∈ ns) (hk : AnyCase k (lit name)) :
    typeOf k path = .ok t := by
  have key : ∀ p ∈ typeNames, ∀ name ∈ p.1, typeOf (lit name) [] = .ok p.2 ∧ ieq (lit name) (lit "auto") = false := by decide +kernel
  rw [typeOf_name hk, typeOf_path (key _ hm name hn).2 path []]
  exact (key _ hm name hn).1

/-- the trace type of each name, as the documentation has it -/
def documentedTypes : List (String × TraceType) :=
  [("txt", .plainTxt), ("csv", .csv), ("binary", .bin), ("lcs", .lcs), ("vscsi", .vscsi), ("twr", .twr), ("twrNS", .twrNS), ("cf1", .cf1), ("valpinTrace", .valpin),
   ("oracleGeneral", .oracleGeneral), ("oracleGeneralBin", .oracleGeneral), ("oracleGeneralOpNS", .oracleGeneralOpNS), ("oracleAkamai", .oracleAkamai), ("oracleCF1", .oracleCF1),
   ("oracleSysTwrNS", .oracleSysTwrNS), ("oracleWiki16u", .oracleWiki16u), ("oracleWiki19u", .oracleWiki19u)]

/-- each name, in any capitalization, selects its trace type, whatever the path -/
theorem C69_ownType {k : Str} {name : String} {t : TraceType} (hm : (name, t) ∈ documentedTypes) (hk : AnyCase k (lit name)) (path : Str) : typeOf k path = .ok t := by
  have key : ∀ p ∈ documentedTypes, typeOf (lit p.1) [] = .ok p.2 ∧ ieq (lit p.1) (lit "auto") = false := by decide +kernel
  rw [typeOf_name hk, typeOf_path (key _ hm).2 path []]
  exact (key _ hm).1

example : ("twrNS", TraceType.twrNS) ∈ documentedTypes := by decide

/-- no two trace types share a name -/
theorem C69_distinct {ns ns' : List String} {t t' : TraceType} (hm : (ns, t) ∈ typeNames) (hm' : (ns', t') ∈ typeNames) {name name' : String} (hn : name ∈ ns)
    (hn' : name' ∈ ns') (h : AnyCase (lit name) (lit name')) : t = t' := by
  have h1 := C69_names (path := []) hm hn (show AnyCase (lit name) (lit name) from rfl)
  have h2 := C69_names (path := []) hm' hn' h
  rw [h1] at h2
  injection h2

/-- any other name, except `auto`, ends the program -/
theorem C69_unknown {k path : Str} (ha : ¬ AnyCase k (lit "auto")) (h : ∀ p ∈ typeNames, ∀ name ∈ p.1, ¬ AnyCase k (lit name)) : typeOf k path = .error .abort := by
  have hf : typeNames.find? (fun p => p.1.any (fun n => ieq k (lit n))) = none := by
    rw [List.find?_eq_none]
    intro p hp hc
    rw [List.any_eq_true] at hc
    obtain ⟨n, hn, hi⟩ := hc
    exact h p hp n hn (ieq_iff.1 hi)
  have hau : ieq k (lit "auto") = false := by
    rw [Bool.eq_false_iff]
    intro hc
    exact ha (ieq_iff.1 hc)
  unfold typeOf
  rw [hau, hf]
  rfl

/-- `auto` never gives a trace type that can be read: the type that was detected is thrown away -/
theorem C69_auto_fails {k : Str} (hk : AnyCase k (lit "auto")) (path : Str) (t : TraceType) (h : typeOf k path = .ok t) : t = .unknown := by
  have hau : ieq k (lit "auto") = true := ieq_iff.2 hk
  unfold typeOf at h
  rw [if_pos hau] at h
  cases hd : detectType path with
  | error e => rw [hd] at h; exact absurd h (by intro h; cases h)
  | ok u =>
    rw [hd] at h
    by_cases hu : u = .unknown
    · rw [Res.bind_ok, if_pos hu] at h; cases h
    · rw [Res.bind_ok, if_neg hu] at h
      injection h with h
      exact h.symm

/-- a name of a trace that contains `oracleGeneral.` is recognised as that type, but see `C69_auto_fails` -/
example : detectType (lit "data/cloudPhysicsIO.oracleGeneral.bin") = .ok .oracleGeneral ∧ typeOf (lit "auto") (lit "data/cloudPhysicsIO.oracleGeneral.bin") = .ok .unknown := by
  refine ⟨?_, ?_⟩ <;> decide +kernel

/-- detecting the type of a short path reads in front of its first character -/
theorem C69_shortPath_fails : typeOf (lit "auto") (lit "trace.vscsi") = .error .outOfBounds := by decide +kernel

example : AnyCase (lit "ORACLEgeneral") (lit "oracleGeneral") ∧ (["oracleGeneralBin", "oracleGeneral"], TraceType.oracleGeneral) ∈ typeNames := by
  refine ⟨?_, ?_⟩
  · unfold AnyCase; decide +kernel
  · decide

end Verif.Cli
