import Verif.Proof.CsvOpen
/-!
# C48, C50: reading CSV traces
-/

namespace Verif.Props.CsvReader
open Verif Verif.Csv Verif.CLib Verif.Text Verif.Spec.Csv Verif.Spec.Text
open Verif.Reader (Request newRequest)

theorem csv_sees {hash : List Nat → Nat} {p : Params} {bytes : List Nat} {d : Nat} {h : Bool} {rows : List (List (List Nat))} {xs : List Item} (hs : p.start = 0) (hD : Distinct p)
    (hC : Chars d 34) (hz : 0 ∉ bytes) (hcap : p.cap ≤ 1 ∨ p.cntField = 0) (hd : DelimiterFound p bytes d) (hh : HeaderFound p bytes h) (hf : CsvFile d rows h bytes)
    (hx : List.Forall₂ (RowSays hash p) rows xs) {n : Nat} (hn : (expected p xs).length < n) : csvSees hash n bytes p = .ok (expected p xs) := by
  obtain ⟨rd, c, text, h1, h2, h3, h4, h5, _⟩ := setup_ok hz hs hd hh hf
  have e : todo p rd.nRead (requests p xs) = expected p xs := by rw [h5]; rfl
  obtain ⟨rs, rd', h6, h7, _⟩ := readAll_lines hD hC hcap xs.length rows xs text rfl h3 hx n rd c newRequest (by rw [e]; exact hn) h2 ⟨fun _ => rfl, fun _ => rfl⟩ h4
  unfold csvSees delivered
  rw [h1, Res.bind_ok, h6, Res.bind_ok, ← e, ← h7]

/-- **C48** a CSV trace is read back: with the delimiter given and told whether there is a header, a client that reads the file to the end sees the requests its rows stand for,
one after another, up to the cap.  What is left out of the full property: a row may not be blank or contain a newline, ids and sizes have no leading zero, sizes have 32 bits, times with all their
decimals 53 bits, a repeat count is from 1 to 2^31, and a cap excludes a column of repeat counts. -/
theorem C48_read_partial (hash : List Nat → Nat) (p : Params) (bytes : List Nat) (rows : List (List (List Nat))) (xs : List Item) (hs : p.start = 0) (hD : Distinct p)
    (hC : Chars p.delimiter 34) (h0 : p.delimiter ≠ 0) (hin : p.delimiter ∈ head bytes) (hset : p.hasHeaderSet = true) (hz : 0 ∉ bytes) (hcap : p.cap ≤ 1 ∨ p.cntField = 0)
    (hf : CsvFile p.delimiter rows p.hasHeader bytes) (hx : List.Forall₂ (RowSays hash p) rows xs) (n : Nat) (hn : (expected p xs).length < n) :
    csvSees hash n bytes p = .ok (expected p xs) :=
  csv_sees hs hD hC hz hcap (.inl ⟨h0, rfl, hin⟩) (.inl ⟨hset, rfl⟩) hf hx hn

/-! ## Traces written as time, id, size -/

theorem plain_dec {d : Nat} (h : ¬ Digit d) (n : Nat) : PlainField d 34 (dec n) := by
  have hg := dec_digit n
  unfold Digit at hg h
  refine ⟨fun c hc => ?_, fun c hc => ?_⟩
  · have := hg c hc
    refine ⟨by rintro rfl; exact h this, by omega, by omega, by omega⟩
  · have : c ∈ dec n := by
      rcases hc with hc | hc
      · exact List.mem_of_head? hc
      · exact List.mem_of_getLast? hc
    have := hg c this
    omega

theorem written_dec {d : Nat} (h : ¬ Digit d) (n : Nat) : Written d 34 (dec n) (dec n) := by
  have nb : Blanks d [] := by intro c hc; simp at hc
  have := Written.plain (plain_dec h n) nb nb
  rwa [List.nil_append, List.append_nil] at this

theorem csvOf_lines {d : Nat} (h : ¬ Digit d) (h10 : d ≠ 10) (xs : List Item) : Lines d (xs.map (fun x => [dec x.time, dec x.id, dec x.size])) (csvOf d xs) := by
  have no10 : ∀ n, 10 ∉ dec n := by
    intro n hn
    have := dec_digit n 10 hn
    unfold Digit at this
    omega
  induction xs with
  | nil => exact .nil
  | cons x xs ih =>
    have e : csvOf d (x :: xs) = joined d [dec x.time, dec x.id, dec x.size] ++ [10] ++ csvOf d xs := by
      unfold csvOf
      rw [List.flatMap_cons]
    rw [e]
    refine .cons (.cons (written_dec h _) (.cons (written_dec h _) (.one (written_dec h _)))) ?_ ?_ (.inl rfl) ih
    · show 10 ∉ dec x.time ++ d :: (dec x.id ++ d :: dec x.size)
      simp only [List.mem_append, List.mem_cons, not_or]
      exact ⟨no10 _, fun e => h10 e.symm, no10 _, fun e => h10 e.symm, no10 _⟩
    · intro hb
      obtain ⟨c, hc⟩ := List.exists_mem_of_ne_nil _ (dec_ne_nil x.time)
      have h1 := (hb c (List.mem_append_left _ hc)).1
      have h2 := dec_digit _ c hc
      unfold Digit at h2
      omega

/-- **C48** round trip: any trace of times below 2^53, ids below 2^64 and sizes below 2^32, written as CSV with any delimiter that is not a digit, point, quote, line end or NUL, is read back unchanged -/
theorem C48_written_partial (hash : List Nat → Nat) (d : Nat) (hC : Chars d 34) (h0 : d ≠ 0) (hg : ¬ Digit d) (xs : List Item) (hne : xs ≠ [])
    (hx : ∀ x ∈ xs, x.time < 2 ^ 53 ∧ x.id < 2 ^ 64 ∧ x.size < 2 ^ 32 ∧ x.cnt = 1) :
    csvSees hash (xs.length + 1) (csvOf d xs) { timeField := 1, idField := 2, sizeField := 3, delimiter := d, hasHeaderSet := true, ignoreZero := false } =
      .ok (xs.map (fun x => ((x.time : Int), (x.id : Int), (x.size : Int)))) := by
  have hE : expected { timeField := 1, idField := 2, sizeField := 3, delimiter := d, hasHeaderSet := true, ignoreZero := false } xs = xs.map (fun x => ((x.time : Int), (x.id : Int), (x.size : Int))) := by
    unfold expected requests
    rw [if_neg (by simp)]
    simp only [Bool.false_and, Bool.not_false, List.filter_true, Bool.false_eq_true, if_false]
    clear hne
    induction xs with
    | nil => rfl
    | cons x xs ih =>
      rw [List.flatMap_cons, ih (fun y hy => hx y (List.mem_cons_of_mem _ hy)), (hx x (by simp)).2.2.2]
      rfl
  have hz : 0 ∉ csvOf d xs := by
    have no0 : ∀ n, 0 ∉ dec n := by
      intro n hn
      have := dec_digit n 0 hn
      unfold Digit at this
      omega
    intro h
    unfold csvOf at h
    rw [List.mem_flatMap] at h
    obtain ⟨x, _, h⟩ := h
    simp only [joined, List.mem_append, List.mem_cons, List.not_mem_nil, or_false] at h
    rcases h with (h | h | h | h | h) | h
    · exact no0 _ h
    · exact h0 h.symm
    · exact no0 _ h
    · exact h0 h.symm
    · exact no0 _ h
    · cases h
  have hin : d ∈ head (csvOf d xs) := by
    cases xs with
    | nil => exact absurd rfl hne
    | cons x xs =>
      have e : csvOf d (x :: xs) = dec x.time ++ (d :: (joined d [dec x.id, dec x.size] ++ [10] ++ csvOf d xs)) := by
        unfold csvOf
        rw [List.flatMap_cons]
        simp [joined]
      unfold head
      rw [e, List.takeWhile_append_of_pos (by
        intro c hc
        have := dec_digit _ c hc
        unfold Digit at this
        simp only [decide_eq_true_eq]
        omega), List.takeWhile_cons_of_pos (by simpa using hC.2.2.1)]
      simp
  have hF : List.Forall₂ (RowSays hash { timeField := 1, idField := 2, sizeField := 3, delimiter := d, hasHeaderSet := true, ignoreZero := false }) (xs.map (fun x => [dec x.time, dec x.id, dec x.size])) xs := by
    clear hE hz hin hne
    induction xs with
    | nil => exact .nil
    | cons x xs ih =>
      refine .cons ?_ (ih (fun y hy => hx y (List.mem_cons_of_mem _ hy)))
      obtain ⟨h1, h2, h3, h4⟩ := hx x (by simp)
      exact ⟨⟨dec x.id, rfl, by simp [h2]⟩, ⟨dec x.time, rfl, .whole h1⟩, ⟨rfl, h3⟩, h4⟩
  rw [← hE]
  refine C48_read_partial hash _ _ _ xs rfl ?_ hC h0 hin rfl hz (.inr rfl) (.plain (csvOf_lines hg hC.2.2.1 xs)) hF _ ?_
  · unfold Distinct
    simp only
    decide
  · rw [hE, List.length_map]
    omega

/-- a trace of two requests with a tab as delimiter, and what its file looks like -/
example : (∀ x ∈ [(⟨1700000000, 18446744073709551615, 4096, 1⟩ : Item), ⟨1700000001, 7, 0, 1⟩], x.time < 2 ^ 53 ∧ x.id < 2 ^ 64 ∧ x.size < 2 ^ 32 ∧ x.cnt = 1) ∧ Chars 9 34 ∧ ¬ Digit 9 := by
  refine ⟨by decide, by unfold Chars; decide, by unfold Digit; decide⟩

/-- a header, quotes, blanks, a time with decimals, a carriage return, a repeat count, a request of size 0, hashed ids, no line end at the end -/
def mixed : List Nat := txt "id;t;sz;n\r\n\"a;b\";1.25; 7 ;2\r\nc;3;0;1\nd ; 4;5;1"

def mixedParams : Params := { idField := 1, timeField := 2, sizeField := 3, cntField := 4, idIsNum := false, delimiter := 59, hasHeader := true, hasHeaderSet := true }

def mixedRows : List (List (List Nat)) := [[txt "a;b", txt "1.25", txt "7", txt "2"], [txt "c", txt "3", txt "0", txt "1"], [txt "d", txt "4", txt "5", txt "1"]]

/-- the hypotheses of C48_read_partial hold of it -/
example : CsvFile 59 mixedRows true mixed ∧ List.Forall₂ (RowSays (fun s => s.sum) mixedParams) mixedRows [⟨1, 254, 7, 2⟩, ⟨3, 99, 0, 1⟩, ⟨4, 100, 5, 1⟩] ∧
    csvSees (fun s => s.sum) 100 mixed mixedParams = .ok [(1, 254, 7), (1, 254, 7), (4, 100, 5)] := by
  have pf : ∀ f : List Nat, (∀ c ∈ f, c ≠ 59 ∧ c ≠ 34 ∧ c ≠ 13 ∧ c ≠ 10 ∧ c ≠ 32 ∧ c ≠ 9) → PlainField 59 34 f := by
    intro f hf
    refine ⟨fun c hc => ⟨(hf c hc).1, (hf c hc).2.1, (hf c hc).2.2.1, (hf c hc).2.2.2.1⟩, fun c hc => ?_⟩
    have : c ∈ f := by
      rcases hc with hc | hc
      · exact List.mem_of_head? hc
      · exact List.mem_of_getLast? hc
    exact (hf c this).2.2.2.2
  have bl : ∀ b : List Nat, (∀ c ∈ b, c = 32 ∨ c = 9) → Blanks 59 b := by
    intro b hb c hc
    exact ⟨hb c hc, by rcases hb c hc with e | e <;> rw [e] <;> decide⟩
  have w : ∀ f b b' : List Nat, (∀ c ∈ f, c ≠ 59 ∧ c ≠ 34 ∧ c ≠ 13 ∧ c ≠ 10 ∧ c ≠ 32 ∧ c ≠ 9) → (∀ c ∈ b, c = 32 ∨ c = 9) → (∀ c ∈ b', c = 32 ∨ c = 9) → Written 59 34 f (b ++ f ++ b') :=
    fun f b b' h1 h2 h3 => .plain (pf f h1) (bl b h2) (bl b' h3)
  have r1 : WrittenRow 59 34 [txt "a;b", txt "1.25", txt "7", txt "2"] (txt "\"a;b\";1.25; 7 ;2") :=
    .cons (t := txt "\"a;b\"") (.quoted (b := []) (b' := []) (bl [] (by decide)) (bl [] (by decide))) (.cons (t := txt "1.25") (w (txt "1.25") [] [] (by decide +kernel) (by decide) (by decide))
      (.cons (t := txt " 7 ") (w (txt "7") [32] [32] (by decide +kernel) (by decide) (by decide)) (.one (w (txt "2") [] [] (by decide +kernel) (by decide) (by decide)))))
  have r2 : WrittenRow 59 34 [txt "c", txt "3", txt "0", txt "1"] (txt "c;3;0;1") :=
    .cons (t := txt "c") (w (txt "c") [] [] (by decide +kernel) (by decide) (by decide)) (.cons (t := txt "3") (w (txt "3") [] [] (by decide +kernel) (by decide) (by decide))
      (.cons (t := txt "0") (w (txt "0") [] [] (by decide +kernel) (by decide) (by decide)) (.one (w (txt "1") [] [] (by decide +kernel) (by decide) (by decide)))))
  have r3 : WrittenRow 59 34 [txt "d", txt "4", txt "5", txt "1"] (txt "d ; 4;5;1") :=
    .cons (t := txt "d ") (w (txt "d") [] [32] (by decide +kernel) (by decide) (by decide)) (.cons (t := txt " 4") (w (txt "4") [32] [] (by decide +kernel) (by decide) (by decide))
      (.cons (t := txt "5") (w (txt "5") [] [] (by decide +kernel) (by decide) (by decide)) (.one (w (txt "1") [] [] (by decide +kernel) (by decide) (by decide)))))
  have nb : ∀ (t : List Nat) (c : Nat), c ∈ t → c ≠ 32 ∧ c ≠ 9 → ¬ Blanks 59 t := by
    intro t c hc h hb
    rcases (hb c hc).1 with e | e
    · exact h.1 e
    · exact h.2 e
  have hl : Lines 59 mixedRows (txt "\"a;b\";1.25; 7 ;2" ++ [13, 10] ++ (txt "c;3;0;1" ++ [10] ++ txt "d ; 4;5;1")) :=
    .cons r1 (by decide +kernel) (nb _ 50 (by decide +kernel) (by decide)) (.inr rfl) (.cons r2 (by decide +kernel) (nb _ 51 (by decide +kernel) (by decide)) (.inl rfl) (.last r3 (by decide +kernel) (nb _ 52 (by decide +kernel) (by decide))))
  refine ⟨?_, ?_, by decide +kernel⟩
  · have e : mixed = txt "id;t;sz;n\r" ++ 10 :: (txt "\"a;b\";1.25; 7 ;2" ++ [13, 10] ++ (txt "c;3;0;1" ++ [10] ++ txt "d ; 4;5;1")) := by decide +kernel
    rw [e]
    exact .headed (by decide +kernel) hl
  · have d1 : TimeText 1 (txt "1.25") := by
      have e : txt "1.25" = dec 1 ++ 46 :: [50, 53] := by decide +kernel
      rw [e]
      exact .decimals (by unfold Digit; decide) (by decide +kernel)
    have d3 : TimeText 3 (txt "3") := by
      have e : txt "3" = dec 3 := by decide +kernel
      rw [e]
      exact .whole (by decide)
    have d4 : TimeText 4 (txt "4") := by
      have e : txt "4" = dec 4 := by decide +kernel
      rw [e]
      exact .whole (by decide)
    refine .cons ⟨⟨txt "a;b", rfl, by decide +kernel⟩, ⟨_, rfl, d1⟩, ⟨by decide +kernel, by decide⟩, ⟨by decide +kernel, by decide, by decide⟩⟩
      (.cons ⟨⟨txt "c", rfl, by decide +kernel⟩, ⟨_, rfl, d3⟩, ⟨by decide +kernel, by decide⟩, ⟨by decide +kernel, by decide, by decide⟩⟩
        (.cons ⟨⟨txt "d", rfl, by decide +kernel⟩, ⟨_, rfl, d4⟩, ⟨by decide +kernel, by decide⟩, ⟨by decide +kernel, by decide, by decide⟩⟩ .nil))

/-! ## Where C48 fails -/

/-- time, id, size in this order, comma, no header -/
def plain : Params := { timeField := 1, idField := 2, sizeField := 3, hasHeaderSet := true }

/-- **C48** fails with an empty line: the request before it is delivered a second time -/
theorem C48_emptyLine_fails : csvSees (fun _ => 0) 100 (txt "4,5,6\n\n7,8,9\n\n") plain = .ok [(4, 5, 6), (4, 5, 6), (7, 8, 9), (7, 8, 9)] := by decide +kernel

/-- **C48** fails with a newline in a quoted field, which is legal CSV and which the parser itself can read: the row is cut in two -/
theorem C48_quotedNewline_fails : csvSees (fun s => s.length) 100 (txt "4,\"a\nb\",6\n") { plain with idIsNum := false } = .ok [(4, 2, 1), (0, 1, 1)] := by decide +kernel

/-- **C48** fails for numbers with a leading zero, which are read as octal: the ids 020 and 16 become the same object, 08 becomes 0 -/
theorem C48_octal_fails : csvSees (fun _ => 0) 100 (txt "1,020,6\n2,16,6\n3,08,6\n") plain = .ok [(1, 16, 6), (2, 16, 6), (3, 0, 6)] := by decide +kernel

/-- **C48** fails for sizes from 2^32 on, which lose their upper bits; a size of 2^32 becomes 0 and the request is dropped -/
theorem C48_size_fails : csvSees (fun _ => 0) 100 (txt "1,2,4294967296\n2,3,4294967297\n") plain = .ok [(2, 3, 1)] := by decide +kernel

/-- **C48** fails for times from 2^53 on (nanoseconds since 1970 are), which are rounded, and for decimals close to the next second -/
theorem C48_time_fails : csvSees (fun _ => 0) 100 (txt "1700000000000000001,2,3\n1.9999999999999999,3,4\n") plain = .ok [(1700000000000000000, 2, 3), (2, 3, 4)] := by decide +kernel

/-- **C48** fails for a cap together with repeat counts: repeated requests are not counted, so that a cap of 2 lets 4 requests through -/
theorem C48_capRepeat_fails : csvSees (fun _ => 0) 100 (txt "4,5,6,3\n5,6,7,2\n6,7,8,1\n") { plain with cntField := 4, cap := 2 } = .ok [(4, 5, 6), (4, 5, 6), (4, 5, 6), (5, 6, 7)] := by decide +kernel

/-- **C48** fails for a repeat count of 0: one request is delivered -/
theorem C48_repeatZero_fails : csvSees (fun _ => 0) 100 (txt "4,5,6,0\n5,6,7,1\n") { plain with cntField := 4 } = .ok [(4, 5, 6), (5, 6, 7)] := by decide +kernel

/-- **C48** fails for a cap of 1, which is no cap -/
theorem C48_capOne_fails : csvSees (fun _ => 0) 100 (txt "4,5,6\n5,6,7\n") { plain with cap := 1 } = .ok [(4, 5, 6), (5, 6, 7)] := by decide +kernel

/-- **C48** fails for a file with one column: the program aborts when the file is opened, as the delimiter is not found -/
theorem C48_oneColumn_fails : csvSees (fun _ => 0) 100 (txt "5\n6\n") { idField := 1, hasHeaderSet := true } = .error .abort := by decide +kernel

/-- **C48** fails for an empty file: the uninitialised line buffer is searched for the delimiter -/
theorem C48_emptyFile_fails : csvSees (fun _ => 0) 100 [] plain = .error .uninit := by decide +kernel

/-- **C48** fails for a negative time: the conversion to an unsigned number is undefined -/
theorem C48_negative_fails : csvSees (fun _ => 0) 100 (txt "-1,2,3\n") plain = .error .outOfBounds := by decide +kernel

/-- **C48** fails for a row that lacks columns: they keep the values of the row before -/
theorem C48_shortRow_fails : csvSees (fun _ => 0) 100 (txt "4,5,6\n7,8\n") plain = .ok [(4, 5, 6), (7, 8, 6)] := by decide +kernel

/-! ## Detection of the delimiter and the header -/

/-- **C50** without a delimiter or without being told whether there is a header, both are detected from the first line: tab, comma, bar or colon, the one with the most occurrences weighted 4, 3, 2, 1;
a header if the line has at least as many letters as digits.  If what is detected is what the file was written with, it is read back as if it had been given. -/
theorem C50_detect_partial (hash : List Nat → Nat) (p : Params) (bytes : List Nat) (d : Nat) (h : Bool) (rows : List (List (List Nat))) (xs : List Item) (hs : p.start = 0) (hD : Distinct p)
    (hC : Chars d 34) (hz : 0 ∉ bytes) (hcap : p.cap ≤ 1 ∨ p.cntField = 0) (hd : DelimiterFound p bytes d) (hh : HeaderFound p bytes h) (hf : CsvFile d rows h bytes)
    (hx : List.Forall₂ (RowSays hash p) rows xs) (n : Nat) (hn : (expected p xs).length < n) : csvSees hash n bytes p = .ok (expected p xs) :=
  csv_sees hs hD hC hz hcap hd hh hf hx hn

/-- **C50** the detected delimiter and header flag are those of the reader, whatever follows the first line -/
theorem C50_found_partial (bytes : List Nat) (d : Nat) (hz : 0 ∉ bytes) (hlen : (head bytes).length < 1023) (hd : Favoured (head bytes) d) :
    detectDelimiter bytes = .ok d ∧ detectHeader bytes = .ok (decide (digits (head bytes) ≤ letters (head bytes))) := by
  have hne : bytes ≠ [] := by
    rintro rfl
    obtain ⟨pre, w, post, h1, h2, h3, h4⟩ := hd
    simp [head] at h2
  refine ⟨detect_ok hz hlen hd, ?_⟩
  exact header_ok hne hlen (by simp)

/-- the tab wins over more commas -/
example : Favoured (txt "a,b\tc,d\te") 9 ∧ DelimiterFound { plain with delimiter := 0 } (txt "a|b\n1|2\n") 124 ∧ HeaderFound { plain with hasHeaderSet := false } (txt "a|b\n1|2\n") true := by
  refine ⟨⟨[], 4, [(44, 3), (124, 2), (58, 1)], rfl, by decide +kernel, by simp, by decide +kernel⟩, .inr ⟨rfl, by decide +kernel, [(9, 4), (44, 3)], 2, [(58, 1)], rfl, by decide +kernel, by decide +kernel, by decide +kernel⟩,
    .inr ⟨rfl, by decide +kernel, by decide +kernel⟩⟩

example : csvSees (fun _ => 0) 100 (txt "time|id|size\n4|5|6\n7|8|9") { timeField := 1, idField := 2, sizeField := 3, delimiter := 0 } = .ok [(4, 5, 6), (7, 8, 9)] := by decide +kernel

/-- **C50** fails for a file without header whose first line has as many letters as digits: its first request is lost -/
theorem C50_header_fails : csvSees (fun s => s.sum) 100 (txt "1,abcd,200\n2,abcd,300\n") { plain with hasHeaderSet := false, idIsNum := false } = .ok [(2, 394, 300)] := by decide +kernel

/-- **C50** fails for a header with more digits than letters: it is taken for a request -/
theorem C50_noHeader_fails : csvSees (fun _ => 0) 100 (txt "c11,c22,c33\n4,5,6\n") { plain with hasHeaderSet := false, ignoreZero := false } = .ok [(0, 0, 0), (4, 5, 6)] := by decide +kernel

/-- **C50** fails for a file with none of the four delimiters: an assertion fails -/
theorem C50_noDelimiter_fails : csvSees (fun _ => 0) 100 (txt "4;5;6\n") { plain with delimiter := 0 } = .error .assertFail := by decide +kernel

/-- **C50** fails for an empty file, and for a first line of 1024 bytes: the copy overruns the buffer -/
theorem C50_overrun_fails : csvSees (fun _ => 0) 100 [] { plain with delimiter := 0 } = .error .outOfBounds ∧
    csvSees (fun _ => 0) 100 (List.replicate 1020 49 ++ txt ",2,3\n") { plain with delimiter := 0 } = .error .outOfBounds := by
  refine ⟨?_, ?_⟩ <;> decide +kernel

end Verif.Props.CsvReader
