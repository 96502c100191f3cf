import Verif.Proof.CliRat
/-!
# C66 and C67: sizes and algorithms on the command line of cachesim
-/

namespace Verif.Props.CliArgs
open Verif Verif.Cli Verif.Spec.Csv Verif.Spec.Cli
set_option maxRecDepth 20000

/-! ## C66: sizes -/

/-- A number with a unit (none, K, KB, M, MB, G, GB, T, TB in any mixture of capital and small letters) means that many times the power of 1024,
for all sizes up to 8 EiB. -/
theorem C66_size {n : Nat} {s : Str} (h : SizeText n s) (hn : n < 2 ^ 63) : convSize s = n := convSize_spec h hn

/-- the hypotheses hold, for example, for "100mB" -/
example : SizeText (100 * 1048576) (lit "100mB") := by
  have : lit "100mB" = [49, 48, 48] ++ [109, 66] := by decide
  rw [this]
  exact .mk (v := lit "mb") (f := 1024 ^ 2) (by simp) (by unfold Digit; decide) (by decide) (by unfold AnyCase; decide) (by decide)

/-- A list of up to 128 sizes with commas between them means these sizes in that order (unless it is the single size 0). -/
theorem C66_sizes (rd : Rat → Rat) (w : Wss) (l : List Str) (vs : List Nat) (h : List.Forall₂ (fun t v => SizeText v t ∧ v < 2 ^ 63) l vs)
    (hl : l.length ≤ 128) (h0 : vs ≠ [0]) : convSizes rd w (commas l) = .ok vs := by
  have hlen := h.length_eq
  have h' : List.Forall₂ (fun t v => t ≠ [] ∧ 44 ∉ t ∧ tokenSize rd w t = .ok v) l vs :=
    h.imp (fun t v ⟨a, b⟩ => ⟨a.ne_nil, a.plain.1, tokenSize_size rd w a b⟩)
  have hne : ∀ t ∈ l, t ≠ [] := by
    intro t ht
    obtain ⟨i, hi, e⟩ := List.mem_iff_getElem.1 ht
    have := (List.forall₂_iff_get.1 h').2 i hi (by omega)
    rw [← e]
    exact this.1
  unfold convSizes
  rw [sizesLoop_spec rd w l vs [] _ h' (by simp; omega) (by have := commas_length l hne; omega)]
  simp only [Res.bind_ok, List.nil_append, if_neg h0]

/-- `t` is a size or a fraction of the working set, and `v` is the size it stands for -/
def Means (n : Nat) (t : Str) (v : Nat) : Prop :=
  (SizeText v t ∧ v < 2 ^ 63) ∨ ∃ x, FractionText x t ∧ AboutFraction x n v ∧ v ≤ n

/-- In such a list, numbers with a decimal point up to 1 stand for fractions of the working set (of its number of objects if object sizes are ignored,
of its bytes otherwise; up to 2^50), exact to one unit, whichever way the rounding of `double` goes. -/
theorem C66_fractions {rd : Rat → Rat} (hr : Rounding rd) (w : Wss) (hw : w.wss ≤ 2 ^ 50) (l : List Str) (hl : l.length ≤ 128)
    (h : ∀ t ∈ l, (∃ n, SizeText n t ∧ n < 2 ^ 63) ∨ (∃ x, FractionText x t ∧ x ≤ 1 ∧ (x = 0 ∨ 1 / 10 ^ 300 ≤ x))) :
    ∃ vs, List.Forall₂ (Means w.wss) l vs ∧ (vs ≠ [0] → convSizes rd w (commas l) = .ok vs) := by
  have step : ∀ l : List Str, (∀ t ∈ l, (∃ n, SizeText n t ∧ n < 2 ^ 63) ∨ (∃ x, FractionText x t ∧ x ≤ 1 ∧ (x = 0 ∨ 1 / 10 ^ 300 ≤ x))) →
      ∃ vs, List.Forall₂ (Means w.wss) l vs ∧ List.Forall₂ (fun t v => t ≠ [] ∧ 44 ∉ t ∧ tokenSize rd w t = .ok v) l vs := by
    intro l
    induction l with
    | nil => intro _; exact ⟨[], .nil, .nil⟩
    | cons t l ih =>
      intro h
      obtain ⟨vs, h1, h2⟩ := ih (fun x hx => h x (List.mem_cons_of_mem _ hx))
      rcases h t (by simp) with ⟨n, a, b⟩ | ⟨x, a, b, c⟩
      · exact ⟨n :: vs, .cons (.inl ⟨a, b⟩) h1, .cons ⟨a.ne_nil, a.plain.1, tokenSize_size rd w a b⟩ h2⟩
      · obtain ⟨z, e, f, g⟩ := tokenSize_fraction hr a hw b c
        exact ⟨z :: vs, .cons (.inr ⟨x, a, f, g⟩) h1, .cons ⟨a.plain.1, a.plain.2.1, e⟩ h2⟩
  obtain ⟨vs, h1, h2⟩ := step l h
  refine ⟨vs, h1, fun h0 => ?_⟩
  have hlen := h2.length_eq
  have hne : ∀ t ∈ l, t ≠ [] := by
    intro t ht
    rcases h t ht with ⟨n, a, _⟩ | ⟨x, a, _⟩
    · exact a.ne_nil
    · exact a.plain.1
  unfold convSizes
  rw [sizesLoop_spec rd w l vs [] _ h2 (by simp; omega) (by have := commas_length l hne; omega)]
  simp only [Res.bind_ok, List.nil_append, if_neg h0]

/-- 1.0 is the working set size itself. -/
theorem C66_whole {rd : Rat → Rat} (hr : Rounding rd) (w : Wss) (hw : w.wss ≤ 2 ^ 53) (h0 : w.wss ≠ 0) {s : Str} (h : FractionText 1 s) :
    convSizes rd w s = .ok [w.wss] := by
  have := sizesLoop_spec rd w [s] [w.wss] [] (s.length + 1) (.cons ⟨h.plain.1, h.plain.2.1, tokenSize_one hr h hw⟩ .nil) (by simp)
    (by have := List.length_pos_of_ne_nil h.plain.1; simp; omega)
  unfold convSizes
  rw [commas_one] at this
  rw [this]
  simp [h0]

/-- exact arithmetic is one of the roundings -/
theorem rounding_id : Rounding id where
  mono := fun _ _ h => h
  int := fun _ _ => rfl
  near := fun x h => by
    have hx : 0 ≤ x := by
      rcases h with h | h
      · rw [h]
      · exact le_trans (le_of_lt minNormal_pos) h
    have : 0 ≤ x / 9007199254740992 := div_nonneg hx (by norm_num)
    constructor
    · show x ≤ x + x / 9007199254740992
      linarith
    · show x - x / 9007199254740992 ≤ x
      linarith

/-- a list that meets the hypotheses of `C66_fractions` -/
example : (∀ t ∈ [lit "0.25", lit "8kB"], (∃ n, SizeText n t ∧ n < 2 ^ 63) ∨ (∃ x, FractionText x t ∧ x ≤ 1 ∧ (x = 0 ∨ 1 / 10 ^ 300 ≤ x))) ∧
    convSizes id ⟨false, 100, 4096⟩ (lit "0.25,8kB") = .ok [1024, 8192] := by
  refine ⟨?_, by decide +kernel⟩
  intro t ht
  simp only [List.mem_cons, List.mem_nil_iff, or_false] at ht
  rcases ht with rfl | rfl
  · refine .inr ⟨25 / 100, ?_, by norm_num, .inr (by decide +kernel)⟩
    have : lit "0.25" = [48] ++ 46 :: [50, 53] := by decide
    rw [this]
    exact .mk (by unfold Digit; decide) (by unfold Digit; decide) (by decide +kernel)
  · refine .inl ⟨8192, ?_, by omega⟩
    have : lit "8kB" = [56] ++ [107, 66] := by decide
    rw [this]
    exact .mk (v := lit "kb") (f := 1024) (by simp) (by unfold Digit; decide) (by decide) (by unfold AnyCase; decide) (by decide)

/-- The single size 0, or the word auto, asks for sizes chosen from the working set … -/
theorem C66_auto (rd : Rat → Rat) (w : Wss) {s : Str} (h : SizeText 0 s ∨ AnyCase s (lit "auto")) : convSizes rd w s = autoSizes rd w := by
  have key : s ≠ [] ∧ 44 ∉ s ∧ tokenSize rd w s = .ok 0 := by
    rcases h with h | h
    · exact ⟨h.ne_nil, h.plain.1, tokenSize_size rd w h (by omega)⟩
    · have hl : s.map lower = [97, 117, 116, 111] := by rw [h]; decide
      have hm : ∀ c ∈ s, lower c ∈ [97, 117, 116, 111] := fun c hc => by rw [← hl]; exact List.mem_map_of_mem hc
      refine ⟨by rintro rfl; simp at hl, fun hc => ?_, ?_⟩
      · have := hm 44 hc
        simp [lower] at this
      · unfold tokenSize
        rw [if_neg (fun hc => by have := hm 46 hc; simp [lower] at this), convSize_auto h]
  have := sizesLoop_spec rd w [s] [0] [] (s.length + 1) (.cons key .nil) (by simp) (by have := List.length_pos_of_ne_nil key.1; simp; omega)
  rw [commas_one] at this
  unfold convSizes
  rw [this]
  simp

/-- … namely, of 0.1%, 0.3%, 1%, 3%, 10%, 20%, 40% and 80% of it, those for which that part of the objects is worthwhile (100 objects, or 5 if object
sizes are ignored; up to one object, a matter of rounding).  The sizes do not decrease and none is larger than the working set.  If nothing is
worthwhile the program says so and ends. -/
theorem C66_autoSizes {rd : Rat → Rat} (hr : Rounding rd) {w : Wss} (hw : w.wss ≤ 2 ^ 50) (ho : w.obj ≤ 2 ^ 50) :
    ∃ fs, fs.Sublist autoFractions ∧ (∀ f ∈ fs, (worthwhile w.ignoreSize : Rat) < f * w.obj + 1) ∧
      (∀ f ∈ autoFractions, f ∉ fs → f * w.obj < (worthwhile w.ignoreSize : Rat) + 1) ∧
      (if fs = [] then autoSizes rd w = .error .abort
       else ∃ l, autoSizes rd w = .ok l ∧ List.Forall₂ (fun f z => AboutFraction f w.wss z ∧ z ≤ w.wss) fs l ∧ l.Pairwise (· ≤ ·)) :=
  autoSizes_spec hr hw ho

example : convSizes id ⟨false, 50000, 10000000⟩ (lit "AUTO") = .ok [30000, 100000, 300000, 1000000, 2000000, 4000000, 8000000] ∧
    autoSizes id ⟨true, 6, 9⟩ = .error .abort := by decide +kernel

/-- Only 128 sizes are possible: a longer list is written behind the end of the array. -/
theorem C66_tooMany_fails (rd : Rat → Rat) (w : Wss) (l : List Str) (vs : List Nat) (h : List.Forall₂ (fun t v => SizeText v t ∧ v < 2 ^ 63) l vs)
    (hl : 128 < l.length) : convSizes rd w (commas l) = .error .outOfBounds := by
  have hlen := h.length_eq
  have h' : List.Forall₂ (fun t v => t ≠ [] ∧ 44 ∉ t ∧ tokenSize rd w t = .ok v) l vs :=
    h.imp (fun t v ⟨a, b⟩ => ⟨a.ne_nil, a.plain.1, tokenSize_size rd w a b⟩)
  have hne : ∀ t ∈ l, t ≠ [] := by
    intro t ht
    obtain ⟨i, hi, e⟩ := List.mem_iff_getElem.1 ht
    have := (List.forall₂_iff_get.1 h').2 i hi (by omega)
    rw [← e]
    exact this.1
  unfold convSizes
  rw [sizesLoop_over rd w l vs [] _ h' (by simp; omega) (by simp) (by have := commas_length l hne; omega)]
  rfl

/-- The binary units KiB, MiB, … that the programs themselves print are not understood: the number is taken as bytes. -/
theorem C66_binaryUnits_fails : convSize (lit "100KiB") = 100 ∧ convSize (lit "10MiB") = 10 ∧ sizeStr (10 * MiB) = lit "10MiB" := by decide +kernel

/-- A size with both a decimal point and a unit is a multiple of the working set: the unit is ignored. -/
theorem C66_pointAndUnit_fails : convSizes id ⟨false, 100, 4096⟩ (lit "1.5GB") = .ok [6144] := by decide +kernel

/-- A fraction so small that no byte is left asks for the automatic sizes instead. -/
theorem C66_smallFraction_fails : convSizes id ⟨false, 1000, 2000⟩ (lit "0.0001") = .ok [200, 400, 800, 1600] := by decide +kernel

/-- Sizes from 16 EiB on wrap around. -/
theorem C66_wrap_fails : convSize (lit "16777217TB") = 1 * TiB := by decide +kernel

/-- The text printed for a size below 8 PiB fits into the 8 bytes that are there for it, and it is the size in B, KiB, MiB, GiB or TiB, the largest
unit that is not larger than the size, rounded to the nearest whole number of units. -/
theorem C66_sizeStr_partial (z : Nat) (hz : z < 2 ^ 53) : ∃ n u f, sizeStr8 z = .ok (dec n ++ lit u) ∧
    (u, f) ∈ [("B", 1), ("KiB", 1024), ("MiB", 1024 ^ 2), ("GiB", 1024 ^ 3), ("TiB", 1024 ^ 4)] ∧ (f = 1 ∨ f ≤ z) ∧ (f < 1024 ^ 4 → z < f * 1024) ∧
    2 * z ≤ 2 * (n * f) + f ∧ 2 * (n * f) ≤ 2 * z + f := by
  have hd : dblNat z = z := by unfold dblNat; rw [if_pos hz]
  have fit : ∀ n (u : String), n < 10000 → (lit u).length = 3 → sizeStr z = decText n ++ lit u → sizeStr8 z = .ok (dec n ++ lit u) := by
    intro n u hn hu e
    have := dec_length (n := n) (k := 4) (by omega) (by omega)
    unfold sizeStr8
    rw [e, decText_eq, if_pos (by rw [List.length_append, hu]; omega)]
  by_cases h1 : z ≥ TiB
  · have e : sizeStr z = decText (roundHalfEven z TiB) ++ lit "TiB" := by unfold sizeStr; rw [if_pos h1, hd]
    have hb : 0 < TiB := by decide
    have hn := roundHalfEven_le (a := z) (b := TiB) (k := 8192) hb (by unfold TiB; omega)
    obtain ⟨n1, n2⟩ := roundHalfEven_near z TiB hb
    unfold TiB at *
    exact ⟨_, "TiB", 1024 ^ 4, fit _ _ (by omega) (by decide) e, by simp, .inr (by omega), by omega, by omega, by omega⟩
  · by_cases h2 : z ≥ GiB
    · have e : sizeStr z = decText (roundHalfEven z GiB) ++ lit "GiB" := by unfold sizeStr; rw [if_neg h1, if_pos h2, hd]
      have hb : 0 < GiB := by decide
      have hn := roundHalfEven_le (a := z) (b := GiB) (k := 1024) hb (by unfold TiB at h1; unfold GiB; omega)
      obtain ⟨n1, n2⟩ := roundHalfEven_near z GiB hb
      unfold GiB TiB at *
      exact ⟨_, "GiB", 1024 ^ 3, fit _ _ (by omega) (by decide) e, by simp, .inr (by omega), by omega, by omega, by omega⟩
    · by_cases h3 : z ≥ MiB
      · have e : sizeStr z = decText (roundHalfEven z MiB) ++ lit "MiB" := by unfold sizeStr; rw [if_neg h1, if_neg h2, if_pos h3, hd]
        have hb : 0 < MiB := by decide
        have hn := roundHalfEven_le (a := z) (b := MiB) (k := 1024) hb (by unfold GiB at h2; unfold MiB; omega)
        obtain ⟨n1, n2⟩ := roundHalfEven_near z MiB hb
        unfold MiB GiB at *
        exact ⟨_, "MiB", 1024 ^ 2, fit _ _ (by omega) (by decide) e, by simp, .inr (by omega), by omega, by omega, by omega⟩
      · by_cases h4 : z ≥ KiB
        · have e : sizeStr z = decText (roundHalfEven z KiB) ++ lit "KiB" := by
            unfold sizeStr
            rw [if_neg h1, if_neg h2, if_neg h3, if_pos h4, hd]
          have hb : 0 < KiB := by decide
          have hn := roundHalfEven_le (a := z) (b := KiB) (k := 1024) hb (by unfold MiB at h3; unfold KiB; omega)
          obtain ⟨n1, n2⟩ := roundHalfEven_near z KiB hb
          unfold KiB MiB at *
          exact ⟨_, "KiB", 1024, fit _ _ (by omega) (by decide) e, by simp, .inr (by omega), by omega, by omega, by omega⟩
        · have e : sizeStr z = decText z ++ lit "B" := by unfold sizeStr; rw [if_neg h1, if_neg h2, if_neg h3, if_neg h4]
          unfold KiB at h4
          refine ⟨z, "B", 1, ?_, by simp, .inl rfl, by omega, by omega, by omega⟩
          have := dec_length (n := z) (k := 4) (by omega) (by omega)
          unfold sizeStr8
          rw [e, decText_eq, if_pos (by rw [List.length_append]; have : (lit "B").length = 1 := by decide
                                        omega)]

/-- For a cache of 10000 TiB the text is longer than the buffer. -/
theorem C66_sizeStr_fails : sizeStr8 (10000 * TiB) = .error .outOfBounds := by decide +kernel

/-- The path of the output file is the one given, up to 127 characters … -/
theorem C66_outputPath_partial (p t : Str) (h0 : p ≠ []) (h : p.length < 128) : outputPath (some p) t = .ok p := by
  cases p with
  | nil => exact absurd rfl h0
  | cons c s => exact if_pos h

/-- … and a longer one is left without its terminator. -/
theorem C66_outputPath_fails (p t : Str) (h : 128 ≤ p.length) : outputPath (some p) t = .error .outOfBounds := by
  cases p with
  | nil => simp at h
  | cons c s => exact if_neg (by omega)

/-! ## C67: names of algorithms -/

/-- A list of up to 16 names with commas between them, in all fewer than 4096 characters, means these names in that order. -/
theorem C67_names (l : List Str) (h : ∀ t ∈ l, t ≠ [] ∧ 44 ∉ t) (hl : l.length ≤ 16) (hc : (commas l).length < 4096) : parseAlgos (commas l) = .ok l := by
  unfold parseAlgos
  rw [if_pos hc, algosLoop_spec l [] _ h (by simp; omega) (by have := commas_length l (fun t ht => (h t ht).1); omega)]
  rfl

example : parseAlgos (lit "LRU,s3-fifo,2q") = .ok [lit "LRU", lit "s3-fifo", lit "2q"] := by decide +kernel

/-- Only 16 names are possible … -/
theorem C67_tooMany_fails (l : List Str) (h : ∀ t ∈ l, t ≠ [] ∧ 44 ∉ t) (hl : 16 < l.length) : parseAlgos (commas l) = .error .outOfBounds := by
  unfold parseAlgos
  split
  · exact algosLoop_over l [] _ h (by simp; omega) (by simp) (by have := commas_length l (fun t ht => (h t ht).1); omega)
  · rfl

/-- … and a text of 4096 characters or more is copied behind the end of the buffer. -/
theorem C67_tooLong_fails (s : Str) (h : 4096 ≤ s.length) : parseAlgos s = .error .outOfBounds := by
  unfold parseAlgos
  rw [if_neg (by omega)]

/-- Every name, in any mixture of capital and small letters, creates the cache of its own algorithm, with the size and the parameters given; only
Belady asks for something more, a trace whose path says that it is in the oracleGeneral format.  (`tinyLFU` also adds a parameter, see below.) -/
theorem C67_create (p : List String × String) (hp : p ∈ algorithms) (n : String) (hn : n ∈ p.1) (name path : Str) (hc : AnyCase name (lit n)) (size : Nat)
    (params : Option Str) (hb : n = "belady" → ioccurs (lit "oracleGeneral") path = true) (ht : n ≠ "tinyLFU") :
    createCache path name size params = .ok ⟨p.2, size, params⟩ := by
  have find : ∀ p ∈ algorithms, ∀ n ∈ p.1, algorithms.find? (fun p => p.1.any (fun m => ieq (lit n) (lit m))) = some p := by decide +kernel
  have belady : ∀ p ∈ algorithms, ∀ n ∈ p.1, p.1 = ["belady"] → n = "belady" := by decide +kernel
  have tiny : ∀ p ∈ algorithms, ∀ n ∈ p.1, p.1 = ["tinyLFU"] → n = "tinyLFU" := by decide +kernel
  have e : (fun q : List String × String => q.1.any (fun m => ieq name (lit m))) = (fun q => q.1.any (fun m => ieq (lit n) (lit m))) := by
    funext q
    congr 1
    funext m
    exact ieq_anyCase hc _
  unfold createCache
  rw [e, find p hp n hn]
  have h1 : ¬ (p.1 = ["belady"] ∧ ¬ ioccurs (lit "oracleGeneral") path = true) := fun ⟨a, b⟩ => b (hb (belady p hp n hn a))
  have h2 : ¬ p.1 = ["tinyLFU"] := fun a => ht (tiny p hp n hn a)
  simp only [if_neg h1, if_neg h2]

/-- The function called is the one with the name of the algorithm, up to hyphens, underscores and capital letters, apart from four synonyms. -/
theorem C67_ownFunction (p : List String × String) (hp : p ∈ algorithms) (n : String) (hn : n ∈ p.1) :
    plain (lit p.2) = plain (lit n ++ lit "_init") ∨ ∃ m, (n, m) ∈ synonyms ∧ p.2 = m ++ "_init" := by
  have h : ∀ p ∈ algorithms, ∀ n ∈ p.1, plain (lit p.2) = plain (lit n ++ lit "_init") ∨ ∃ q ∈ synonyms, q.1 = n ∧ p.2 = q.2 ++ "_init" := by decide +kernel
  rcases h p hp n hn with h | ⟨q, h1, h2, h3⟩
  · exact .inl h
  · exact .inr ⟨q.2, by rw [← h2]; exact h1, h3⟩

example : (["fifomerge", "fifo-merge"], "FIFO_Merge_init") ∈ algorithms := by decide +kernel

/-- Any other name ends the program. -/
theorem C67_unknown (name path : Str) (size : Nat) (params : Option Str) (h : ∀ p ∈ algorithms, ∀ n ∈ p.1, ¬ AnyCase name (lit n)) :
    createCache path name size params = .error .abort := by
  have : algorithms.find? (fun p => p.1.any (fun m => ieq name (lit m))) = none := by
    rw [List.find?_eq_none]
    intro p hp
    rw [Bool.not_eq_true, List.any_eq_false]
    intro n hn he
    exact h p hp n hn (by simpa [ieq, AnyCase] using he)
  unfold createCache
  rw [this]

/-- Belady without an oracleGeneral trace ends the program. -/
theorem C67_belady (name path : Str) (size : Nat) (params : Option Str) (hc : AnyCase name (lit "belady")) (hp : ioccurs (lit "oracleGeneral") path = false) :
    createCache path name size params = .error .abort := by
  have e : (fun q : List String × String => q.1.any (fun m => ieq name (lit m))) = (fun q => q.1.any (fun m => ieq (lit "belady") (lit m))) := by
    funext q
    congr 1
    funext m
    exact ieq_anyCase hc _
  have f : algorithms.find? (fun q => q.1.any (fun m => ieq (lit "belady") (lit m))) = some (["belady"], "Belady_init") := by decide +kernel
  unfold createCache
  rw [e, f]
  simp [hp]

/-- `tinyLFU` is W-TinyLFU; if parameters are given without a window size, a window of 1% is added. -/
theorem C67_tinyLFU (name path : Str) (size : Nat) (params : Option Str) (hc : AnyCase name (lit "tinyLFU")) :
    createCache path name size params = .ok ⟨"WTinyLFU_init", size, params.map (fun q => if occurs (lit "window-size=") q then q else q ++ lit ",window-size=0.01")⟩ := by
  have e : (fun q : List String × String => q.1.any (fun m => ieq name (lit m))) = (fun q => q.1.any (fun m => ieq (lit "tinyLFU") (lit m))) := by
    funext q
    congr 1
    funext m
    exact ieq_anyCase hc _
  have f : algorithms.find? (fun q => q.1.any (fun m => ieq (lit "tinyLFU") (lit m))) = some (["tinyLFU"], "WTinyLFU_init") := by decide +kernel
  unfold createCache
  rw [e, f]
  simp

/-- There is one cache for every algorithm and every size, and the one for the `i`-th algorithm and the `j`-th size has the number `i * sizes + j`. -/
theorem C67_grid (path : Str) (names : List Str) (sizes : List Nat) (params : Option Str) (l : List Call) (h : createCaches path names sizes params = .ok l) :
    l.length = names.length * sizes.length ∧ ∀ i j (hi : i < names.length) (hj : j < sizes.length),
      ∃ c, l[i * sizes.length + j]? = some c ∧ createCache path names[i] sizes[j] params = .ok c := by
  have row : ∀ (n : Str) (zs : List Nat) (acc out : List Call), zs.foldlM (fun acc z => createCache path n z params >>= fun c => .ok (acc ++ [c])) acc = .ok out →
      ∃ r, out = acc ++ r ∧ r.length = zs.length ∧ ∀ j (hj : j < zs.length), ∃ c, r[j]? = some c ∧ createCache path n zs[j] params = .ok c := by
    intro n zs
    induction zs with
    | nil =>
      intro acc out h
      have h' : acc = out := by simpa [List.foldlM, pure, Except.pure] using h
      exact ⟨[], by simp [h'], rfl, fun j hj => by simp at hj⟩
    | cons z zs ih =>
      intro acc out h
      rw [List.foldlM_cons] at h
      obtain ⟨acc', h1, h2⟩ := Res.bind_eq_ok.1 h
      obtain ⟨c, h3, h4⟩ := Res.bind_eq_ok.1 h1
      simp only [Except.ok.injEq] at h4
      subst h4
      obtain ⟨r, e, hl, hj⟩ := ih _ _ h2
      refine ⟨c :: r, by rw [e]; simp, by simp [hl], ?_⟩
      intro j hjl
      cases j with
      | zero => exact ⟨c, by simp, h3⟩
      | succ j => simpa using hj j (by simpa using hjl)
  have all : ∀ (ns : List Str) (acc out : List Call),
      ns.foldlM (fun acc n => sizes.foldlM (fun acc z => createCache path n z params >>= fun c => .ok (acc ++ [c])) acc) acc = .ok out →
      ∃ r, out = acc ++ r ∧ r.length = ns.length * sizes.length ∧ ∀ i j (hi : i < ns.length) (hj : j < sizes.length),
        ∃ c, r[i * sizes.length + j]? = some c ∧ createCache path ns[i] sizes[j] params = .ok c := by
    intro ns
    induction ns with
    | nil =>
      intro acc out h
      have h' : acc = out := by simpa [List.foldlM, pure, Except.pure] using h
      exact ⟨[], by simp [h'], by simp, fun i j hi => by simp at hi⟩
    | cons n ns ih =>
      intro acc out h
      rw [List.foldlM_cons] at h
      obtain ⟨acc', h1, h2⟩ := Res.bind_eq_ok.1 h
      obtain ⟨r1, e1, l1, g1⟩ := row n sizes acc acc' h1
      obtain ⟨r2, e2, l2, g2⟩ := ih _ _ h2
      refine ⟨r1 ++ r2, by rw [e2, e1, List.append_assoc], by rw [List.length_append, l1, l2, List.length_cons, Nat.add_mul, Nat.one_mul, Nat.add_comm], ?_⟩
      intro i j hi hj
      cases i with
      | zero =>
        obtain ⟨c, a, b⟩ := g1 j hj
        refine ⟨c, ?_, by simpa using b⟩
        rw [Nat.zero_mul, Nat.zero_add, List.getElem?_append_left (by omega)]
        exact a
      | succ i =>
        obtain ⟨c, a, b⟩ := g2 i j (by simpa using hi) hj
        refine ⟨c, ?_, by simpa using b⟩
        have : (i + 1) * sizes.length + j = r1.length + (i * sizes.length + j) := by rw [l1, Nat.add_mul]; omega
        rw [this, List.getElem?_append_right (by omega), Nat.add_sub_cancel_left]
        exact a
  obtain ⟨r, e, hl, hg⟩ := all names [] l h
  rw [List.nil_append] at e
  subst e
  exact ⟨hl, hg⟩

example : createCaches (lit "t.csv") [lit "LRU", lit "Clock"] [10, 20] none =
    .ok [⟨"LRU_init", 10, none⟩, ⟨"LRU_init", 20, none⟩, ⟨"Clock_init", 10, none⟩, ⟨"Clock_init", 20, none⟩] := by decide +kernel

/-- An empty name between two commas is kept and ends the program; after the last comma it is dropped. -/
theorem C67_emptyName : parseAlgos (lit "lru,,fifo") = .ok [lit "lru", [], lit "fifo"] ∧ parseAlgos (lit "lru,fifo,") = .ok [lit "lru", lit "fifo"] ∧
    createCache (lit "t") [] 10 none = .error .abort := by decide +kernel

end Verif.Props.CliArgs
