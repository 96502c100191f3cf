import Verif.Tools.TracePrint
import Verif.Props.CsvReader
import Verif.Props.TxtReader
import Verif.Proof.CliArgs
import Verif.Props.CliParams
import Mathlib.Algebra.Order.Field.Rat
import Mathlib.Tactic.Linarith
/-!
# C73: a printed trace can be read again
-/

set_option maxRecDepth 20000

namespace Verif.TracePrint
open Verif Verif.Reader Verif.Cli Verif.CLib Verif.Csv Verif.Spec.Csv Verif.Spec.Text Verif.Spec.Cli Verif.Props.CsvReader

theorem writtenRow_joined {d : Nat} : ∀ (fs : List (List Nat)), fs ≠ [] → (∀ f ∈ fs, PlainField d 34 f) → WrittenRow d 34 fs (joined d fs) := by
  intro fs
  induction fs with
  | nil => intro h; exact absurd rfl h
  | cons f fs ih =>
    intro _ hp
    have hw : Written d 34 f f := by
      have nb : Blanks d [] := by intro c hc; simp at hc
      have := Written.plain (hp f (by simp)) nb nb
      rwa [List.nil_append, List.append_nil] at this
    cases fs with
    | nil => exact .one hw
    | cons g gs => exact .cons hw (ih (by simp) (fun f hf => hp f (List.mem_cons_of_mem _ hf)))

theorem plain_signed {d : Nat} (h : ¬ Digit d) (h45 : d ≠ 45) (n : Int) : PlainField d 34 (signedText n) := by
  obtain ⟨p1, p2⟩ := plain_dec h n.natAbs
  unfold signedText
  rw [decText_eq]
  split
  · refine ⟨?_, ?_⟩
    · intro c hc
      rcases List.mem_cons.1 hc with rfl | hc
      · exact ⟨fun e => h45 e.symm, by omega, by omega, by omega⟩
      · exact p1 c hc
    · intro c hc
      rcases hc with hc | hc
      · simp at hc; omega
      · have : c ∈ 45 :: dec n.natAbs := List.mem_of_getLast? hc
        rcases List.mem_cons.1 this with rfl | hc
        · omega
        · have := dec_digit _ c hc
          unfold Digit at this
          omega
  · exact ⟨p1, p2⟩

theorem signed_chars {n : Int} {c : Nat} (h : c ∈ signedText n) : c = 45 ∨ Digit c := by
  unfold signedText at h
  rw [decText_eq] at h
  split at h
  · rcases List.mem_cons.1 h with rfl | h
    · exact .inl rfl
    · exact .inr (dec_digit _ c h)
  · exact .inr (dec_digit _ c h)

/-- the columns of a line -/
def fieldsOf (o : Opts) (next : Bool) (q : Request) : List (List Nat) :=
  [signedText (q.vals .time), dec (shownId o q), signedText (asInt (q.vals .size))] ++ if next then [signedText (q.vals .next)] else []

theorem row_eq {o : Opts} (h : o.idOnly = false) (next : Bool) (q : Request) : row o next q = joined o.delimiter (fieldsOf o next q) ++ [10] := by
  unfold row fieldsOf
  rw [h, decText_eq]
  cases next <;> simp [joined]

theorem joined_mem {d c : Nat} : ∀ (fs : List (List Nat)), c ∈ joined d fs → c = d ∨ ∃ f ∈ fs, c ∈ f := by
  intro fs
  induction fs with
  | nil => intro h; simp [joined] at h
  | cons f fs ih =>
    intro h
    cases fs with
    | nil => exact .inr ⟨f, by simp, by simpa [joined] using h⟩
    | cons g gs =>
      simp only [joined, List.mem_append, List.mem_cons] at h
      rcases h with h | h | h
      · exact .inr ⟨f, by simp, h⟩
      · exact .inl h
      · rcases ih (by simpa [joined] using h) with h | ⟨f', hf, hc⟩
        · exact .inl h
        · exact .inr ⟨f', List.mem_cons_of_mem _ hf, hc⟩

theorem fields_chars {o : Opts} {next : Bool} {q : Request} {f : List Nat} (hf : f ∈ fieldsOf o next q) {c : Nat} (hc : c ∈ f) : c = 45 ∨ Digit c := by
  unfold fieldsOf at hf
  rcases List.mem_append.1 hf with h | h
  · simp only [List.mem_cons, List.not_mem_nil, or_false] at h
    rcases h with rfl | rfl | rfl
    · exact signed_chars hc
    · exact .inr (dec_digit _ c hc)
    · exact signed_chars hc
  · cases next
    · simp at h
    · simp at h; subst h; exact signed_chars hc

theorem lines {o : Opts} (h : o.idOnly = false) (hg : ¬ Digit o.delimiter) (h45 : o.delimiter ≠ 45) (h10 : o.delimiter ≠ 10) (next : Bool) (qs : List Request) :
    Lines o.delimiter (qs.map (fieldsOf o next)) (qs.flatMap (row o next)) := by
  induction qs with
  | nil => exact .nil
  | cons q qs ih =>
    rw [List.flatMap_cons, List.map_cons, row_eq h]
    refine .cons (writtenRow_joined _ (by unfold fieldsOf; simp) ?_) ?_ ?_ (.inl rfl) ih
    · intro f hf
      unfold fieldsOf at hf
      rcases List.mem_append.1 hf with h | h
      · simp only [List.mem_cons, List.not_mem_nil, or_false] at h
        rcases h with rfl | rfl | rfl
        · exact plain_signed hg h45 _
        · exact plain_dec hg _
        · exact plain_signed hg h45 _
      · cases next
        · simp at h
        · simp at h; subst h; exact plain_signed hg h45 _
    · intro hm
      rcases joined_mem _ hm with e | ⟨f, hf, hc⟩
      · exact h10 e.symm
      · rcases fields_chars hf hc with e | e
        · omega
        · unfold Digit at e; omega
    · intro hb
      have hne : signedText (q.vals .time) ≠ [] := by
        unfold signedText
        rw [decText_eq]
        split
        · simp
        · exact dec_ne_nil _
      obtain ⟨c, hc⟩ := List.exists_mem_of_ne_nil _ hne
      have hm : c ∈ joined o.delimiter (fieldsOf o next q) := by
        unfold fieldsOf
        simp only [joined, List.cons_append, List.mem_append]
        exact .inl hc
      have h1 := (hb c hm).1
      rcases signed_chars hc with e | e
      · omega
      · unfold Digit at e; omega

theorem signed_nonneg {n : Int} (h : 0 ≤ n) : signedText n = dec n.toNat := by
  unfold signedText
  rw [if_neg (by omega), decText_eq]
  congr 1
  omega

/-- the requests that can be printed and read: a time of 0 to 2^53, an id of 64 bits, a size of 1 to 2^31 -/
def Printable (q : Request) : Prop :=
  (0 ≤ q.vals .time ∧ q.vals .time < 2 ^ 53) ∧ (0 ≤ q.vals .id ∧ q.vals .id < 2 ^ 64) ∧ (0 < q.vals .size ∧ q.vals .size < 2 ^ 31)

/-- the row of the trace that a request is -/
def itemOf (q : Request) : Item := ⟨(q.vals .time).toNat, (q.vals .id).toNat, (q.vals .size).toNat, 1⟩

theorem expected_items (p : Text.Params) (hc : ¬ p.cap > 1) (hi : p.ignoreSize = false) : ∀ (qs : List Request), (∀ q ∈ qs, Printable q) → expected p (qs.map itemOf) = qs.map shown := by
  intro qs hq
  unfold expected
  rw [if_neg hc]
  unfold requests
  induction qs with
  | nil => rfl
  | cons q qs ih =>
    obtain ⟨⟨a1, a2⟩, ⟨b1, b2⟩, c1, c2⟩ := hq q (by simp)
    have ih := ih (fun x hx => hq x (List.mem_cons_of_mem _ hx))
    have hz : ¬ (itemOf q).size = 0 := by show ¬ (q.vals .size).toNat = 0; omega
    rw [List.map_cons, List.filter_cons_of_pos (by simp [hz]), List.flatMap_cons, ih, List.map_cons]
    simp only [hi, Bool.false_eq_true, if_false]
    show [(((q.vals .time).toNat : Int), ((q.vals .id).toNat : Int), ((q.vals .size).toNat : Int))] ++ _ = _
    unfold shown
    rw [Int.toNat_of_nonneg a1, Int.toNat_of_nonneg b1, Int.toNat_of_nonneg (by omega)]
    rfl

/-- a trace printed with commas is read again as the same trace by the CSV reader, with the columns 1, 2 and 3 for time, object and size, numeric
ids and no cap; delimiter and header may be given or left to be found.  `_partial`: see `Printable`. -/
theorem C73_csv_partial (hash : List Nat → Nat) (qs : List Request) (hq : ∀ q ∈ qs, Printable q) (p : Text.Params) (hs : p.start = 0)
    (h1 : p.timeField = 1) (h2 : p.idField = 2) (h3 : p.sizeField = 3) (h4 : p.cntField = 0) (hn : p.idIsNum = true) (hc : ¬ p.cap > 1) (hi : p.ignoreSize = false)
    (hd : p.delimiter = 44 ∨ p.delimiter = 0) (hh : p.hasHeaderSet = true → p.hasHeader = true) (n : Nat) (hl : qs.length < n) :
    csvSees hash n (print {} qs) p = .ok (qs.map shown) := by
  have hE := expected_items p hc hi qs hq
  rw [← hE]
  have hhead : ∃ t, header {} (hasNext qs) = t ++ [10] ∧ 10 ∉ t ∧ (0 ∉ t) ∧ 44 ∈ t ∧ t.length < 1023 ∧ Favoured t 44 ∧ digits t ≤ letters t := by
    have fav : ∀ t : List Nat, t.count 9 = 0 → 0 < t.count 44 → t.count 124 = 0 → t.count 58 = 0 → Favoured t 44 := by
      intro t e1 e2 e3 e4
      refine ⟨[(9, 4)], 3, [(124, 2), (58, 1)], rfl, e2, ?_, ?_⟩
      · intro x hx; simp at hx; subst hx; simp only [e1]; omega
      · intro x hx; simp at hx; rcases hx with rfl | rfl
        · simp only [e3]; omega
        · simp only [e4]; omega
    cases hasNext qs
    · exact ⟨lit "# time,object,size", rfl, by decide +kernel, by decide +kernel, by decide +kernel, by decide +kernel, fav _ (by decide +kernel) (by decide +kernel) (by decide +kernel) (by decide +kernel), by decide +kernel⟩
    · exact ⟨lit "# time,object,size,next_access_vtime", rfl, by decide +kernel, by decide +kernel, by decide +kernel, by decide +kernel, fav _ (by decide +kernel) (by decide +kernel) (by decide +kernel) (by decide +kernel), by decide +kernel⟩
  obtain ⟨t, et, t10, t0, t44, tl, tf, td⟩ := hhead
  have hbytes : print {} qs = t ++ 10 :: qs.flatMap (row {} (hasNext qs)) := by
    unfold print
    rw [et, List.append_assoc]; rfl
  have hheadline : head (print {} qs) = t := by
    unfold head
    rw [hbytes, List.takeWhile_append_of_pos (by
      intro c hc'
      simp only [decide_eq_true_eq]
      rintro rfl
      exact t10 hc'), List.takeWhile_cons_of_neg (by simp), List.append_nil]
  have hL := lines (o := {}) rfl (by unfold Digit; decide) (by decide) (by decide) (hasNext qs) qs
  refine csv_sees (d := 44) (h := true) (rows := qs.map (fieldsOf {} (hasNext qs))) hs ?_ (by unfold Chars; decide) ?_ (.inr h4) ?_ ?_ ?_ ?_ ?_
  · unfold Distinct
    rw [h1, h2, h3, h4]
    decide
  · rw [hbytes]
    intro hm
    rcases List.mem_append.1 hm with h | h
    · exact t0 h
    · rcases List.mem_cons.1 h with h | h
      · omega
      · obtain ⟨q, _, hr⟩ := List.mem_flatMap.1 h
        rw [row_eq rfl] at hr
        rcases List.mem_append.1 hr with h | h
        · rcases joined_mem _ h with e | ⟨f, hf, hcf⟩
          · exact absurd e (by decide)
          · rcases fields_chars hf hcf with e | e
            · omega
            · unfold Digit at e; omega
        · simp at h
  · rcases hd with hd | hd
    · exact .inl ⟨by omega, hd, by rw [hheadline]; exact t44⟩
    · exact .inr ⟨hd, by rw [hheadline]; exact tl, by rw [hheadline]; exact tf⟩
  · by_cases hset : p.hasHeaderSet = true
    · exact .inl ⟨hset, hh hset⟩
    · exact .inr ⟨by simpa using hset, by rw [hheadline]; exact tl, by rw [hheadline]; simpa using td⟩
  · rw [hbytes]
    exact .headed t10 hL
  · rw [List.forall₂_map_left_iff, List.forall₂_map_right_iff, List.forall₂_same]
    intro q hm
    obtain ⟨⟨a1, a2⟩, ⟨b1, b2⟩, c1, c2⟩ := hq q hm
    refine ⟨⟨dec (itemOf q).id, ?_, ?_⟩, ?_, ?_, ?_⟩
    · rw [h2]; rfl
    · rw [if_pos hn]
      refine ⟨rfl, ?_⟩
      show (q.vals .id).toNat < _
      omega
    · rw [h1, if_neg (by decide)]
      refine ⟨dec (itemOf q).time, ?_, .whole ?_⟩
      · show some (signedText _) = _
        rw [signed_nonneg a1]; rfl
      · show (q.vals .time).toNat < _
        omega
    · rw [h3, if_neg (by decide)]
      refine ⟨?_, ?_⟩
      · show some (signedText (asInt _)) = _
        have : asInt (q.vals .size) = q.vals .size := by unfold asInt; omega
        rw [this, signed_nonneg (by omega)]; rfl
      · show (q.vals .size).toNat < _
        omega
    · rw [h4, if_pos rfl]; rfl
  · rw [hE, List.length_map]; exact hl

/-- the same on the command line: the trace parameters `time-col=1,obj-id-col=2,obj-size-col=3,obj-id-is-num=true`, in any order and spelling,
perhaps with `header=true` and `delimiter=,`, read a printed trace -/
theorem C73_commandLine_partial (hash : List Nat → Nat) (qs : List Request) (hq : ∀ q ∈ qs, Printable q) (l : List Setting) (text : Str) (hl : ParamText l text)
    (hp : l.Perm [.time 1, .id 2, .size 3, .idIsNum true] ∨ l.Perm [.time 1, .id 2, .size 3, .idIsNum true, .header true, .delimiter 44]) (n : Nat) (hn : qs.length < n) :
    ∃ p, parseParams (some text) = .ok p ∧ csvSees hash n (print {} qs) (textParams false (-1) p) = .ok (qs.map shown) := by
  refine ⟨_, C68_params hl, ?_⟩
  have key : ∀ l : List Setting, (l.Perm [.time 1, .id 2, .size 3, .idIsNum true] ∨ l.Perm [.time 1, .id 2, .size 3, .idIsNum true, .header true, .delimiter 44]) →
      (l.foldl Setting.apply {}).timeField = 1 ∧ (l.foldl Setting.apply {}).idField = 2 ∧ (l.foldl Setting.apply {}).sizeField = 3 ∧ (l.foldl Setting.apply {}).cntField = 0 ∧
      (l.foldl Setting.apply {}).idIsNum = true ∧ ((l.foldl Setting.apply {}).delimiter = 44 ∨ (l.foldl Setting.apply {}).delimiter = 0) ∧
      ((l.foldl Setting.apply {}).hasHeaderSet = true → (l.foldl Setting.apply {}).hasHeader = true) := by
    intro l h
    rcases h with h | h
    · have e : [Setting.time 1, .id 2, .size 3, .idIsNum true].foldl Setting.apply {} = l.foldl Setting.apply {} := by
        refine h.symm.foldl_eq' ?_ _
        intro x hx y hy z
        simp only [List.mem_cons, List.not_mem_nil, or_false] at hx hy
        rcases hx with rfl | rfl | rfl | rfl <;> rcases hy with rfl | rfl | rfl | rfl <;> rfl
      rw [← e]
      exact ⟨rfl, rfl, rfl, rfl, rfl, .inr rfl, by simp [Setting.apply]⟩
    · have e : [Setting.time 1, .id 2, .size 3, .idIsNum true, .header true, .delimiter 44].foldl Setting.apply {} = l.foldl Setting.apply {} := by
        refine h.symm.foldl_eq' ?_ _
        intro x hx y hy z
        simp only [List.mem_cons, List.not_mem_nil, or_false] at hx hy
        rcases hx with rfl | rfl | rfl | rfl | rfl | rfl <;> rcases hy with rfl | rfl | rfl | rfl | rfl | rfl <;> rfl
      rw [← e]
      exact ⟨rfl, rfl, rfl, rfl, rfl, .inl rfl, fun _ => rfl⟩
  obtain ⟨k1, k2, k3, k4, k5, k6, k7⟩ := key l hp
  exact C73_csv_partial hash qs hq _ rfl k1 k2 k3 k4 k5 (by show ¬ (-1 : Int) > 1; decide) rfl k6 k7 n hn

/-- the ids of a trace, printed alone, are read again by the plain text reader -/
theorem C73_idOnly_partial (hash : List Nat → Nat) (qs : List Request) (hq : ∀ q ∈ qs, 0 ≤ q.vals .id ∧ q.vals .id < 2 ^ 64) :
    delivered hash (qs.length + 1) (Text.setupTxt (print { idOnly := true } qs) {}) = .ok (qs.map (fun q => ((0 : Int), q.vals .id, (1 : Int)))) := by
  have e : print { idOnly := true } qs = (qs.map (fun q => (q.vals .id).toNat)).flatMap (fun i => dec i ++ [10]) := by
    unfold print header row shownId
    simp only [if_true, Bool.false_eq_true, if_false, List.nil_append, decText_eq]
    rw [List.flatMap_map]
  rw [e]
  have := Props.TxtReader.C49_written_partial hash {} rfl rfl (qs.map (fun q => (q.vals .id).toNat)) (by
    intro i hi
    obtain ⟨q, hm, rfl⟩ := List.mem_map.1 hi
    have := hq q hm
    omega)
  rw [List.length_map] at this
  rw [this]
  congr 1
  show ((qs.map (fun q => (q.vals .id).toNat)).map _) = _
  rw [List.map_map]
  apply List.map_congr_left
  intro q hm
  have := hq q hm
  show ((0 : Int), (((q.vals .id).toNat : Nat) : Int), (1 : Int)) = _
  rw [Int.toNat_of_nonneg this.1]

/-- a request with the given time, id, size and next access -/
def mk (t i z n : Int) : Request := ⟨fun f => match f with | .time => t | .id => i | .size => z | .next => n | _ => 0, 0, true⟩

/-- a printed trace -/
example : print {} [mk 3 18446744073709551615 7 5, mk 4 12 2147483647 9223372036854775807] =
    lit "# time,object,size,next_access_vtime\n3,18446744073709551615,7,5\n4,12,2147483647,9223372036854775807\n" := by decide +kernel

example : ∀ q ∈ [mk 3 18446744073709551615 7 5, mk 4 12 2147483647 9223372036854775807], Printable q := by
  intro q hq
  simp at hq
  rcases hq with rfl | rfl <;> (unfold Printable mk; simp)

/-- printed with another delimiter, the trace cannot be read: the header still has commas, and the reader ends the program when the delimiter is
not in the first line -/
theorem C73_delimiter_fails : csvSees (fun _ => 0) 100 (print { delimiter := 9 } [mk 3 1 7 (-2)])
    { timeField := 1, idField := 2, sizeField := 3, delimiter := 9, hasHeader := true, hasHeaderSet := true } = .error .abort := by decide +kernel

/-- a size from 2^31 on is printed as a negative number -/
theorem C73_size_fails : print {} [mk 3 1 2147483648 (-2)] = lit "# time,object,size\n3,1,-2147483648\n" := by decide +kernel

/-- objects that differ only in the upper half of their ids are printed alike if 32-bit ids are asked for -/
theorem C73_id32_fails : print { id32 := true, idOnly := true } [mk 3 1 7 (-2), mk 3 4294967297 7 (-2)] = lit "1\n1\n" := by decide +kernel

/-- whether the column of the next access is printed depends on the first request alone -/
theorem C73_next_fails : print {} [mk 3 1 7 (-2), mk 3 2 7 5] = lit "# time,object,size\n3,1,7\n3,2,7\n" := by decide +kernel

end Verif.TracePrint

namespace Verif.Cli

/-- `create_reader` never samples, whatever the sample ratio: it is converted to an integer first -/
theorem C68_sampleRatio_fails (ratio : Rat) : samples ratio = false := by
  unfold samples
  rw [decide_eq_false_iff_not]
  generalize (if ratio < 0 then -((-ratio).floor) else ratio.floor : Int) = z
  rintro ⟨h1, h2⟩
  have h3 : (z : Rat) < 1 := by linarith
  have h4 : 0 < z := by exact_mod_cast h1
  have h5 : z < 1 := by exact_mod_cast h3
  omega

end Verif.Cli
