import Verif.Proof.CsvOpen
import Verif.Proof.TextUse
import Verif.Proof.TxtReader
import Verif.Props.CsvReader
/-!
# C52: moving around in a text trace
-/

namespace Verif.Props.TextNav
open Verif Verif.Csv Verif.CLib Verif.Text Verif.Spec.Csv Verif.Spec.Text
open Verif.Reader (Request newRequest)

/-! ## Steps -/

/-- **C52** `go_back_one_req` goes from the end of a line to its start, if the line has from 2 to 1023 bytes with its newline -/
theorem C52_back_partial (rd : TReader) (pre line rest : List Nat) (hb : rd.bytes = pre ++ line ++ 10 :: rest) (hp : rd.pos = pre.length + line.length + 1)
    (hpre : pre.length = rd.start ∨ (rd.start < pre.length ∧ pre.getLast? = some 10)) (hl : 10 ∉ line) (hz : 0 ∉ pre ++ line) (h1 : 1 ≤ line.length) (h2 : line.length ≤ 1022) :
    goBackOne rd = .ok (0, { rd with pos := pre.length }) := by
  have e : rd.bytes.take rd.pos = pre ++ (line ++ [10]) := by
    have : rd.bytes = (pre ++ (line ++ [10])) ++ rest := by rw [hb]; simp
    rw [this, hp]
    have : pre.length + line.length + 1 = (pre ++ (line ++ [10])).length := by simp; omega
    rw [this, List.take_left]
  refine goBack_line e (by rw [hp]; simp; omega) hpre ⟨by simp; omega, by simp; omega, by rw [List.dropLast_concat]; exact hl, ?_⟩ (fun h => hz (List.mem_append_left _ h))
  intro h
  rcases List.mem_append.1 h with h | h
  · exact hz (List.mem_append_right _ h)
  · simp at h

example : goBackOne { setupTxt (txt "11\n22\n33\n") {} with pos := 6 } = .ok (0, { setupTxt (txt "11\n22\n33\n") {} with pos := 3 }) := by decide +kernel

/-- **C52** at the start of the trace there is nothing to go back to, and the reader is unchanged -/
theorem C52_backStart_partial (rd : TReader) (h : rd.pos ≤ rd.start) : goBackOne rd = .ok (1, rd) := goBack_start h

/-- **C52** `skip_n_req` skips that many lines -/
theorem C52_skip_partial (rd : TReader) (lines : List (List Nat)) (rest : List Nat) (h : ∀ l ∈ lines, 10 ∉ l) (hb : rd.bytes.drop rd.pos = lines.flatMap (fun l => l ++ [10]) ++ rest) :
    skipN rd lines.length = (lines.length, { rd with pos := rd.pos + (lines.flatMap (fun l => l ++ [10])).length }) := skip_lines lines h rd rest hb

example : (setupTxt (txt "11\n\n33\n44") {}).bytes.drop 0 = [txt "11", [], txt "33"].flatMap (fun l => l ++ [10]) ++ txt "44" := by decide +kernel

/-! ## Reset, clone, count -/

theorem opened {hash : List Nat → Nat} {p : Params} {bytes : List Nat} {d : Nat} {h : Bool} {xs : List Item} (hT : CsvTrace hash p bytes d h xs) (h0 : p.cntField = 0) {rd0 : TReader}
    (ho : setupCsv bytes p = .ok rd0) :
    ∃ c rows, At d p true rd0 c (body h bytes) ∧ Lines d rows (body h bytes) ∧ List.Forall₂ (RowSays hash p) rows xs ∧ rd0.nLeft = 0 ∧ rd0.nRead = 0 ∧ rd0.bytes = bytes ∧ rd0.params = p ∧ rd0.start = rd0.pos ∧
      ∀ rd, Used hash rd0 rd → (∃ t, reset rd = { rd0 with lastTime := t }) ∧ clone rd = .ok rd0 := by
  obtain ⟨rows, hf, hx⟩ := hT.rows
  obtain ⟨rd, c, text, h1, h2, h3, h4, h5, h6, h7, h8, h9, h10, h11, h12, h13, h14⟩ := setup_ok hT.noNul hT.start hT.delim hT.header hf
  rw [ho] at h1
  simp only [Except.ok.injEq] at h1
  subst h1
  subst h14
  refine ⟨c, rows, h2, h3, hx, h4, h5, h6, h7, h13, ?_⟩
  intro rd hu
  obtain ⟨ps, pos, n, t, e, hps⟩ := used_steady h2.csv h2.fresh.st h2.idx (by rw [h2.fields.2.2.2]; exact h0) h2.fwd h4 hu
  subst e
  refine ⟨⟨t, ?_⟩, ?_⟩
  · have e1 := h2.csv
    have e2 : (if c.hasHeader then ((getline rd0.bytes 0).getD []).length else 0) = rd0.pos := by rw [h6, h8, h12]
    have e3 : ({ c with parser := if c.delimiter ≠ 0 then { delim := c.delimiter } else {} } : CsvParams) = c := by
      have e5 : ({ delim := c.delimiter } : Parser) = c.parser := by rw [h9, h11]
      rw [if_pos (by rw [h9]; exact h10), e5]
    have e4 : reset { rd0 with csv := some { c with parser := ps }, pos := pos, nRead := n, lastTime := t } =
        { rd0 with csv := some { c with parser := if c.delimiter ≠ 0 then { delim := c.delimiter } else {} }, nRead := 0, lastTime := t,
                   pos := if c.hasHeader then ((getline rd0.bytes 0).getD []).length else 0 } := rfl
    rw [e4, e2, e3, ← e1, ← h5]
  · unfold clone
    rw [if_pos (show (some _ : Option CsvParams).isSome = true from rfl)]
    show setupCsv rd0.bytes rd0.params = _
    rw [h6, h7, ho]

theorem sees_at {hash : List Nat → Nat} {p : Params} {bytes : List Nat} {d : Nat} {h : Bool} {xs : List Item} (hT : CsvTrace hash p bytes d h xs) (h0 : p.cntField = 0) {rd : TReader} {c : CsvParams}
    {rows : List (List (List Nat))} (ha : At d p true rd c (body h bytes)) (hL : Lines d rows (body h bytes)) (hF : List.Forall₂ (RowSays hash p) rows xs) (hl : rd.nLeft = 0) (hn : rd.nRead = 0) {n : Nat} (hf : (expected p xs).length < n) :
    ∃ rs rd', readAll hash n rd newRequest = .ok (rs, rd') ∧ rs.map shown = expected p xs := by
  have e : todo p rd.nRead (requests p xs) = expected p xs := by rw [hn]; rfl
  obtain ⟨rs, rd', h6, h7, _⟩ := readAll_lines hT.distinct hT.chars (.inr h0) xs.length rows xs _ rfl hL hF n rd c newRequest (by rw [e]; exact hf) ha ⟨fun _ => rfl, fun _ => rfl⟩ hl
  exact ⟨rs, rd', h6, by rw [h7, e]⟩

theorem At.time {d : Nat} {p : Params} {b : Bool} {rd : TReader} {c : CsvParams} {rest : List Nat} (h : At d p b rd c rest) (t : Int) : At d p b { rd with lastTime := t } c rest :=
  ⟨h.csv, h.fresh, h.idx, h.fields, h.conf, h.rest, h.mmap, h.fwd⟩

/-- **C52** after any use of the reader - reading in both directions, skipping, stepping back, seeking, resetting - `reset_reader` and another pass deliver all requests.  Left out: traces with repeat
counts. -/
theorem C52_reset_partial (hash : List Nat → Nat) (p : Params) (bytes : List Nat) (d : Nat) (h : Bool) (xs : List Item) (hT : CsvTrace hash p bytes d h xs) (h0 : p.cntField = 0) (rd0 rd : TReader)
    (ho : setupCsv bytes p = .ok rd0) (hu : Used hash rd0 rd) (n : Nat) (hn : (expected p xs).length < n) : delivered hash n (reset rd) = .ok (expected p xs) := by
  obtain ⟨c, rows, h1, h2, h3, h4, h5, h6, h7, h8, h9⟩ := opened hT h0 ho
  obtain ⟨⟨t, e⟩, _⟩ := h9 rd hu
  rw [e]
  obtain ⟨rs, rd', k1, k2⟩ := sees_at hT h0 (rd := { rd0 with lastTime := t }) (At.time h1 t) h2 h3 h4 h5 hn
  unfold delivered
  rw [k1, Res.bind_ok, k2]

/-- **C52** a clone of a reader in any state delivers all requests -/
theorem C52_clone_partial (hash : List Nat → Nat) (p : Params) (bytes : List Nat) (d : Nat) (h : Bool) (xs : List Item) (hT : CsvTrace hash p bytes d h xs) (h0 : p.cntField = 0) (rd0 rd : TReader)
    (ho : setupCsv bytes p = .ok rd0) (hu : Used hash rd0 rd) (n : Nat) (hn : (expected p xs).length < n) : ∃ rd1, clone rd = .ok rd1 ∧ delivered hash n rd1 = .ok (expected p xs) := by
  obtain ⟨c, rows, h1, h2, h3, h4, h5, h6, h7, h8, h9⟩ := opened hT h0 ho
  obtain ⟨_, e⟩ := h9 rd hu
  obtain ⟨rs, rd', k1, k2⟩ := sees_at hT h0 h1 h2 h3 h4 h5 hn
  refine ⟨rd0, e, ?_⟩
  unfold delivered
  rw [k1, Res.bind_ok, k2]

/-- **C52** `get_num_of_req`, called in any state, returns the number of requests a pass delivers -/
theorem C52_count_partial (hash : List Nat → Nat) (p : Params) (bytes : List Nat) (d : Nat) (h : Bool) (xs : List Item) (hT : CsvTrace hash p bytes d h xs) (h0 : p.cntField = 0) (rd0 rd : TReader)
    (ho : setupCsv bytes p = .ok rd0) (hu : Used hash rd0 rd) (n : Nat) (hn : (expected p xs).length < n) : numReq hash n rd = .ok (expected p xs).length := by
  obtain ⟨c, rows, h1, h2, h3, h4, h5, h6, h7, h8, h9⟩ := opened hT h0 ho
  obtain ⟨_, e⟩ := h9 rd hu
  obtain ⟨rs, rd', k1, k2⟩ := sees_at hT h0 (rd := { rd0 with mmapOff := 0 }) ⟨h1.csv, h1.fresh, h1.idx, h1.fields, h1.conf, h1.rest, Nat.lt_of_le_of_lt (Nat.zero_le _) h1.mmap, h1.fwd⟩ h2 h3 h4 h5 hn
  unfold numReq
  rw [e, Res.bind_ok, k1, Res.bind_ok, ← k2, List.length_map]

/-- **C52** `read_first_req`, called in any state, gives the first request -/
theorem C52_first_partial (hash : List Nat → Nat) (p : Params) (bytes : List Nat) (d : Nat) (h : Bool) (xs : List Item) (hT : CsvTrace hash p bytes d h xs) (h0 : p.cntField = 0) (rd0 rd : TReader)
    (ho : setupCsv bytes p = .ok rd0) (hu : Used hash rd0 rd) (x : Int × Int × Int) (hx : (expected p xs).head? = some x) : ∃ rd' r, readFirst hash rd newRequest = .ok (rd', r) ∧ shown r = x := by
  obtain ⟨c, rows, h1, h2, h3, h4, h5, h6, h7, h8, h9⟩ := opened hT h0 ho
  obtain ⟨⟨t, e⟩, _⟩ := h9 rd hu
  obtain ⟨rs, rd', k1, k2⟩ := sees_at hT h0 (rd := { rd0 with lastTime := t }) (At.time h1 t) h2 h3 h4 h5 (Nat.lt_succ_self _)
  unfold readFirst
  rw [e]
  unfold readAll at k1
  rw [Res.bind_eq_ok] at k1
  obtain ⟨⟨s, r1, q1⟩, k3, k1⟩ := k1
  simp only at k1
  split at k1
  · simp only [Except.ok.injEq, Prod.mk.injEq] at k1
    rw [← k1.1] at k2
    rw [← k2] at hx
    cases hx
  · rw [Res.bind_eq_ok] at k1
    obtain ⟨⟨rs', rd2⟩, _, k1⟩ := k1
    simp only [Except.ok.injEq, Prod.mk.injEq] at k1
    rw [← k1.1] at k2
    refine ⟨r1, q1, by rw [k3, Res.bind_ok], ?_⟩
    rw [← k2] at hx
    simpa using hx

/-! ## The end of the trace, and reading backwards -/

theorem white_iff (c : Nat) : White c ↔ isSpace c = true := by rw [isSpace_iff]; rfl

theorem table_of {hash : List Nat → Nat} {p : Params} {bytes : List Nat} {d : Nat} {h : Bool} {xs : List Item} (hT : CsvTrace hash p bytes d h xs) {rd : TReader} {c : CsvParams} {rows : List (List (List Nat))}
    (ha : At d p true rd c (body h bytes)) (hL : Lines d rows (body h bytes)) (hF : List.Forall₂ (RowSays hash p) rows xs) (hb : rd.bytes = bytes) (hs : rd.start = rd.pos) (hR : Retraceable (body h bytes)) :
    ∃ L e, Table hash d p bytes rd.start (L ++ [e]) ∧ (L ++ [e]).map (·.x) = xs ∧ ∃ a x y w, e.raw = a ++ x :: y :: w ∧ x ≠ 10 ∧ isSpace y = false ∧ ∀ c ∈ w, isSpace c = true := by
  have hz : 0 ∉ body h bytes := by
    intro hm
    rw [← ha.rest, hb] at hm
    exact hT.noNul (List.mem_of_mem_drop hm)
  obtain ⟨T, t1, t2, t3, t4, t5⟩ := lines_table hL xs hF hR.1 hz
  obtain ⟨_, a, x, y, w, r1, r2, r3⟩ := hR
  have hne : T ≠ [] := by
    rintro rfl
    rw [← t3] at r1
    cases r1
  obtain ⟨L, e, rfl⟩ : ∃ L e, T = L ++ [e] := ⟨T.dropLast, T.getLast hne, (List.dropLast_concat_getLast hne).symm⟩
  rw [← t3, List.map_append, List.map_cons, List.map_nil, List.getLast?_concat, Option.some.injEq] at r1
  refine ⟨L, e, ⟨⟨bytes.take rd.pos, ?_, ?_⟩, t4, t5, hT.noNul⟩, t2, a, x, y, w, r1, ?_, ?_, ?_⟩
  · rw [t1, ← ha.rest, hb, List.take_append_drop]
  · have := ha.rest
    rw [List.length_take, hs]
    rcases Nat.lt_or_ge bytes.length rd.pos with hgt | hle
    · exfalso
      rw [hb, List.drop_of_length_le (by omega), ← t1] at this
      have hl := (t4 e (by simp)).2.two
      have : flat (L ++ [e]) = [] := this.symm
      rw [flat_append, flat_cons] at this
      have : e.raw = [] := by
        have := (List.append_eq_nil_iff.1 this).2
        exact (List.append_eq_nil_iff.1 this).1
      rw [this] at hl
      simp at hl
    · omega
  · rintro rfl
    have := (t4 e (by simp)).2.noLF
    rw [r1] at this
    apply this
    rw [List.dropLast_append_of_ne_nil (by simp)]
    apply List.mem_append_right
    cases w <;> simp
  · cases hsp : isSpace y with
    | false => rfl
    | true => exact absurd ((white_iff y).2 hsp) r2
  · exact fun c hc => (white_iff c).1 (r3 c hc)

theorem unzip_last {hash : List Nat → Nat} {d : Nat} {p : Params} {bytes : List Nat} {start : Nat} {L : List Entry} {e : Entry} (hT : Table hash d p bytes start (L ++ [e])) :
    bytes.drop (start + (flat L).length) = e.raw := by
  obtain ⟨H, h1, h2⟩ := hT.split
  rw [h1, flat_append, ← List.append_assoc, ← h2, ← List.length_append, List.drop_left]
  simp [flat]

/-- **C52** `read_last_req`, called in any state, gives the last request.  Left out: files with a line of one byte or of more than 1022, a last row that is dropped for its size 0, repeat counts. -/
theorem C52_last_partial (hash : List Nat → Nat) (p : Params) (bytes : List Nat) (d : Nat) (h : Bool) (ys : List Item) (x : Item) (hT : CsvTrace hash p bytes d h (ys ++ [x])) (h0 : p.cntField = 0)
    (hR : Retraceable (body h bytes)) (hk : p.ignoreZero = false ∨ x.size ≠ 0) (rd0 rd : TReader) (ho : setupCsv bytes p = .ok rd0) (hu : Used hash rd0 rd) :
    ∃ rd' r, readLast hash rd newRequest = .ok (rd', r) ∧ shown r = ((x.time : Int), (x.id : Int), if p.ignoreSize then (1 : Int) else (x.size : Int)) := by
  obtain ⟨c, rows, h1, h2, h3, h4, h5, h6, h7, h8, h9⟩ := opened hT h0 ho
  obtain ⟨⟨t, er⟩, _⟩ := h9 rd hu
  obtain ⟨L, e, hTab, hxs, a, x1, y1, w, r1, r2, r3, r4⟩ := table_of hT h1 h2 h3 h6 h8 hR
  have hex : e.x = x := by
    rw [List.map_append, List.map_cons, List.map_nil] at hxs
    have := congrArg List.getLast? hxs
    rw [List.getLast?_concat, List.getLast?_concat, Option.some.injEq] at this
    exact this
  obtain ⟨k, s1, s2⟩ := last_pos (rd := { rd0 with lastTime := t }) hTab h6 rfl r1 r2 r3 r4
  have hrb : rd.bytes = bytes := by
    have : (reset rd).bytes = rd.bytes := by unfold reset; split <;> rfl
    rw [← this, er]
    exact h6
  have hdrop := unzip_last hTab
  obtain ⟨wr, rs⟩ := (hTab.ok e (by simp)).1
  obtain ⟨tt, nn, w1, w2, w3, w4, w5⟩ := wr
  have hcnt : e.x.cnt = 1 := by
    have := rs.cnt
    rw [if_pos h0] at this
    exact this
  have hlines : Lines d [e.fs] e.raw := by
    rw [w1]
    rcases w5 with w5 | rfl
    · have := Lines.cons w2 w3 w4 w5 .nil
      rwa [List.append_nil] at this
    · rw [List.append_nil]
      exact .last w2 w3 w4
  have hreq : requests p [x] = [((x.time : Int), (x.id : Int), if p.ignoreSize then (1 : Int) else (x.size : Int))] := by
    rw [← hex] at hk ⊢
    unfold requests
    have : (!(p.ignoreZero && decide (e.x.size = 0))) = true := by
      rcases hk with hk | hk
      · rw [hk]; rfl
      · simp [hk]
    rw [List.filter_cons, this]
    simp [hcnt]
  have hat : At d p true { rd0 with lastTime := t, pos := rd0.start + (flat L).length } c e.raw :=
    ⟨h1.csv, h1.fresh, h1.idx, h1.fields, h1.conf, by rw [← hdrop]; show rd0.bytes.drop _ = _; rw [h6], h1.mmap, h1.fwd⟩
  have htodo : todo p 0 (requests p [x]) = [((x.time : Int), (x.id : Int), if p.ignoreSize then (1 : Int) else (x.size : Int))] := by
    rw [hreq]
    unfold todo
    split
    · rename_i hc
      rw [List.take_of_length_le]
      simp only [List.length_cons, List.length_nil]
      omega
    · rfl
  obtain ⟨rs', rd', k1, k2, _⟩ := readAll_lines hT.distinct hT.chars (.inr h0) 1 [e.fs] [x] e.raw rfl hlines (.cons (hex ▸ rs) .nil) 2 { rd0 with lastTime := t, pos := rd0.start + (flat L).length } c newRequest
    (by show (todo p rd0.nRead _).length < 2; rw [h5, htodo]; simp) hat ⟨fun _ => rfl, fun _ => rfl⟩ h4
  have k2 : rs'.map shown = todo p rd0.nRead (requests p [x]) := k2
  rw [h5, htodo] at k2
  unfold readLast
  rw [er, hrb, s1, Res.bind_ok, s2, Res.bind_ok]
  simp only
  unfold readAll at k1
  rw [Res.bind_eq_ok] at k1
  obtain ⟨⟨s, r1, q1⟩, k3, k1⟩ := k1
  simp only at k1
  split at k1
  · simp only [Except.ok.injEq, Prod.mk.injEq] at k1
    rw [← k1.1] at k2
    cases k2
  · rw [Res.bind_eq_ok] at k1
    obtain ⟨⟨rs', rd2⟩, _, k1⟩ := k1
    simp only [Except.ok.injEq, Prod.mk.injEq] at k1
    rw [← k1.1, List.map_cons] at k2
    refine ⟨r1, q1, by rw [k3, Res.bind_ok], ?_⟩
    simp only [List.cons.injEq] at k2
    exact k2.1

/-- **C52** reading backwards from the end, as the trace converter does, gives the requests in reverse order, without those of size 0 if they are ignored -/
theorem C52_backward_partial (hash : List Nat → Nat) (p : Params) (bytes : List Nat) (d : Nat) (h : Bool) (xs : List Item) (hT : CsvTrace hash p bytes d h xs) (h0 : p.cntField = 0) (hcap : p.cap ≤ 1)
    (hR : Retraceable (body h bytes)) (hne : requests p xs ≠ []) (rd0 : TReader) (ho : setupCsv bytes p = .ok rd0) (n : Nat) (hn : xs.length < n) :
    ∃ rs, readBackward hash n rd0 newRequest = .ok rs ∧ rs.map shown = (requests p xs).reverse ∧ ∀ r ∈ rs, r.valid = true := by
  obtain ⟨c, rows, h1, h2, h3, h4, h5, h6, h7, h8, h9⟩ := opened hT h0 ho
  obtain ⟨L, e, hTab, hxs, a, x1, y1, w, r1, r2, r3, r4⟩ := table_of hT h1 h2 h3 h6 h8 hR
  have hreq : requests p xs = kept p (L ++ [e]) := by
    rw [← hxs]
    exact requests_kept h0 (fun z hz => (hTab.ok z hz).1)
  have hk : ∃ y ∈ L ++ [e], dropped p y.x = false := by
    by_contra hcon
    apply hne
    rw [hreq]
    refine kept_dropped ?_
    intro y hy
    cases hd : dropped p y.x with
    | true => rfl
    | false => exact absurd ⟨y, hy, hd⟩ hcon
  obtain ⟨rs, k1, k2, k3⟩ := readBackward_ok hT.distinct hT.chars h0 hcap hTab h1 h4 h6 rfl r1 r2 r3 r4 hk (fuel := n) (by
    have := congrArg List.length hxs
    rw [List.length_map] at this
    omega)
  exact ⟨rs, k1, by rw [k2, hreq], k3⟩

/-- a file that meets the hypotheses: a header, three rows, one of them of size 0 -/
def file3 : List Nat := txt "time,id,size\n1,20,300\n2,21,0\n3,20,300\n"

theorem file3_lines : Lines 44 [[txt "1", txt "20", txt "300"], [txt "2", txt "21", txt "0"], [txt "3", txt "20", txt "300"]] (txt "1,20,300\n2,21,0\n3,20,300\n") := by
  have := CsvReader.csvOf_lines (d := 44) (by unfold Digit; decide) (by decide) [⟨1, 20, 300, 1⟩, ⟨2, 21, 0, 1⟩, ⟨3, 20, 300, 1⟩]
  have e1 : csvOf 44 [⟨1, 20, 300, 1⟩, ⟨2, 21, 0, 1⟩, ⟨3, 20, 300, 1⟩] = txt "1,20,300\n2,21,0\n3,20,300\n" := by decide +kernel
  have e2 : ([⟨1, 20, 300, 1⟩, ⟨2, 21, 0, 1⟩, ⟨3, 20, 300, 1⟩] : List Item).map (fun x => [dec x.time, dec x.id, dec x.size]) = [[txt "1", txt "20", txt "300"], [txt "2", txt "21", txt "0"], [txt "3", txt "20", txt "300"]] := by decide +kernel
  rw [e1, e2] at this
  exact this

example : CsvTrace (fun _ => 0) { timeField := 1, idField := 2, sizeField := 3, delimiter := 0 } file3 44 true [⟨1, 20, 300, 1⟩, ⟨2, 21, 0, 1⟩, ⟨3, 20, 300, 1⟩] ∧ Retraceable (body true file3) ∧
    (setupCsv file3 { timeField := 1, idField := 2, sizeField := 3, delimiter := 0 } >>= fun rd => readBackward (fun _ => 0) 10 rd newRequest >>= fun rs => .ok (rs.map shown)) = .ok [(3, 20, 300), (1, 20, 300)] := by
  refine ⟨⟨rfl, by unfold Distinct; decide, by unfold Chars; decide, by decide +kernel, .inr ⟨rfl, by decide +kernel, [(9, 4)], 3, [(124, 2), (58, 1)], rfl, by decide +kernel, by decide +kernel, by decide +kernel⟩,
    .inr ⟨rfl, by decide +kernel, by decide +kernel⟩, ?_⟩, ?_, by decide +kernel⟩
  · have e : file3 = txt "time,id,size" ++ 10 :: txt "1,20,300\n2,21,0\n3,20,300\n" := by decide +kernel
    refine ⟨_, by rw [e]; exact .headed (by decide +kernel) file3_lines, ?_⟩
    have tw : ∀ t s, t < 2 ^ 53 → txt s = dec t → TimeText t (txt s) := by
      intro t s h1 h2
      rw [h2]
      exact .whole h1
    refine .cons ⟨⟨txt "20", rfl, by decide +kernel⟩, ⟨_, rfl, tw 1 "1" (by decide) (by decide +kernel)⟩, ⟨by decide +kernel, by decide⟩, rfl⟩
      (.cons ⟨⟨txt "21", rfl, by decide +kernel⟩, ⟨_, rfl, tw 2 "2" (by decide) (by decide +kernel)⟩, ⟨by decide +kernel, by decide⟩, rfl⟩
        (.cons ⟨⟨txt "20", rfl, by decide +kernel⟩, ⟨_, rfl, tw 3 "3" (by decide) (by decide +kernel)⟩, ⟨by decide +kernel, by decide⟩, rfl⟩ .nil))
  · refine ⟨by decide +kernel, txt "3,20,3", 48, 48, [10], by decide +kernel, by unfold White; decide, by unfold White; decide⟩

/-! ## Where C52 fails -/

/-- what a client sees that opens a text file and reads it backwards -/
def bwTxt (n : Nat) (s : String) (p : Params) : Res (List (Int × Int × Int)) := readBackward (fun _ => 0) n (setupTxt (txt s) p) newRequest >>= fun r => .ok (r.map shown)

/-- **C52** fails for a last line of one character: it is missed when the file is read backwards, although lines of two characters are fine -/
theorem C52_shortLine_fails : bwTxt 10 "11\n22\n3\n" {} = .ok [(0, 22, 1), (0, 11, 1)] ∧ bwTxt 10 "11\n22\n33\n" {} = .ok [(0, 33, 1), (0, 22, 1), (0, 11, 1)] := by
  refine ⟨?_, ?_⟩ <;> decide +kernel

/-- **C52** fails for a file that begins with an empty line: stepping back to it reads outside the buffer -/
theorem C52_emptyFirst_fails : (goBackOne { setupTxt (txt "\n12\n") {} with pos := 1 }).map (·.1) = .error .outOfBounds := by decide +kernel

/-- **C52** fails for a line of 1025 bytes: a step back leads into it instead of to its start -/
theorem C52_longLine_fails : (goBackOne { setupTxt (txt "1\n" ++ List.replicate 1025 49 ++ txt "\n") {} with pos := 1028 }).map (fun r => r.2.pos) ≠ .ok 2 := by decide +kernel

/-- **C52** fails for a file of white space: looking for its last line does not end -/
theorem C52_whiteSpace_fails : (setPos (setupTxt (txt "\n\n") {}) 2).map (fun r => r.pos) = .error .diverge := by decide +kernel

/-- **C52** fails for `read_first_req`: the next read delivers the second request, not the one that was due (binary traces restore the position) -/
theorem C52_firstMoves_fails : (readFirst (fun _ => 0) (skipN (setupTxt (txt "11\n22\n33\n44\n") {}) 2).2 newRequest >>= fun r => readOne (fun _ => 0) r.1 newRequest >>= fun s => .ok (shown s.2.2)) = .ok (0, 22, 1) ∧
    (readOne (fun _ => 0) (skipN (setupTxt (txt "11\n22\n33\n44\n") {}) 2).2 newRequest >>= fun s => .ok (shown s.2.2)) = .ok (0, 33, 1) := by
  refine ⟨?_, ?_⟩ <;> decide +kernel

/-- **C52** fails for `reset_reader` in the middle of a repeated row: the outstanding repetitions are delivered first, for object 0 and time 5, when the trace is read again -/
theorem C52_resetRepeat_fails : (setupCsv (txt "5,6,7,3\n6,7,8,1\n") { timeField := 1, idField := 2, sizeField := 3, cntField := 4, hasHeaderSet := true } >>= fun rd =>
    readOne (fun _ => 0) rd newRequest >>= fun r => delivered (fun _ => 0) 10 (reset r.2.1)) = .ok [(5, 0, 1), (5, 0, 1), (5, 6, 7), (5, 6, 7), (5, 6, 7), (6, 7, 8)] := by decide +kernel

/-- **C52** fails for `skip_n_req` where requests and lines differ: rows of size 0, which are not delivered, count as requests to skip -/
theorem C52_skipRows_fails : (setupCsv (txt "5,6,0\n6,7,8\n7,8,9\n") { timeField := 1, idField := 2, sizeField := 3, hasHeaderSet := true } >>= fun rd =>
    delivered (fun _ => 0) 10 (skipN rd 1).2) = .ok [(6, 7, 8), (7, 8, 9)] := by decide +kernel

/-- **C52** fails for a repeated row of size 0 read backwards: forwards it is dropped, backwards its repetitions are delivered -/
theorem C52_zeroRepeat_fails : (setupCsv (txt "5,60,7,1\n6,70,0,3\n") { timeField := 1, idField := 2, sizeField := 3, cntField := 4, hasHeaderSet := true } >>= fun rd =>
    readBackward (fun _ => 0) 10 rd newRequest >>= fun rs => .ok (rs.map shown)) ≠ .ok [(5, 60, 7)] := by decide +kernel

end Verif.Props.TextNav
