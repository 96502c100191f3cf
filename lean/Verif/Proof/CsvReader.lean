import Verif.Proof.LibCsv
import Verif.Proof.CLib
import Verif.Spec.TextTrace
/-!
# The CSV reader
-/

namespace Verif.Text
open Verif Verif.Csv Verif.CLib Verif.Spec.Csv Verif.Spec.Text
open Verif.Reader (Request Vals Fld sWrap newRequest)

/-! ## Lines of a file -/

theorem getline_line {bytes : List Nat} {pos : Nat} {t rest : List Nat} (h : bytes.drop pos = t ++ 10 :: rest) (ht : 10 ∉ t) :
    getline bytes pos = some (t ++ [10]) := by
  unfold getline
  rw [h]
  split
  · rename_i heq
    simp at heq
  · have e : (t ++ 10 :: rest).takeWhile (fun c => decide (c ≠ 10)) = t := by
      rw [List.takeWhile_append_of_pos (by intro c hc; simp only [decide_eq_true_eq]; rintro rfl; exact ht hc), List.takeWhile_cons_of_neg (by simp), List.append_nil]
    rw [e, if_pos (by simp)]

theorem getline_last {bytes : List Nat} {pos : Nat} {t : List Nat} (h : bytes.drop pos = t) (hne : t ≠ []) (ht : 10 ∉ t) : getline bytes pos = some t := by
  unfold getline
  rw [h]
  split
  · exact absurd rfl hne
  · have e : t.takeWhile (fun c => decide (c ≠ 10)) = t := by
      rw [List.takeWhile_eq_self_iff]
      intro c hc
      simp only [decide_eq_true_eq]
      rintro rfl
      exact ht hc
    rw [e, if_neg ht, List.append_nil]

theorem getline_end {bytes : List Nat} {pos : Nat} (h : bytes.drop pos = []) : getline bytes pos = none := by
  unfold getline
  rw [h]

theorem drop_after {bytes : List Nat} {pos : Nat} {l rest : List Nat} (h : bytes.drop pos = l ++ rest) : bytes.drop (pos + l.length) = rest := by
  rw [← List.drop_drop, h, List.drop_left]

theorem lineEnd_split {e : List Nat} (h : LineEnd e) (t rest : List Nat) (ht : 10 ∉ t) : ∃ t', t ++ e = t' ++ [10] ∧ 10 ∉ t' := by
  rcases h with rfl | rfl
  · exact ⟨t, rfl, ht⟩
  · exact ⟨t ++ [13], by simp, by simp [ht]⟩

theorem getline_row {bytes : List Nat} {pos : Nat} {t e rest : List Nat} (h : bytes.drop pos = (t ++ e) ++ rest) (ht : 10 ∉ t) (he : LineEnd e) :
    getline bytes pos = some (t ++ e) := by
  obtain ⟨t', e1, h1⟩ := lineEnd_split he t rest ht
  rw [e1]
  refine getline_line (rest := rest) ?_ h1
  rw [h, e1, List.append_assoc]
  rfl

/-! ## The parser on one line -/

/-- a parser before a row -/
structure Fresh (d : Nat) (p : Parser) : Prop where
  ready : Ready p
  between : Between p
  st : p.st = .rowNotBegun
  delim : p.delim = d
  quote : p.quote = 34

theorem fresh_init (d : Nat) : Fresh d { delim := d } :=
  ⟨⟨⟨rfl, rfl, rfl⟩, fun _ => rfl, fun h => absurd rfl h⟩, ⟨.inl rfl, rfl, rfl, rfl⟩, rfl, rfl, rfl⟩

theorem fresh_clear {d : Nat} {p : Parser} (h : Ready p) (hd : p.delim = d) (hq : p.quote = 34) : Fresh d (clear p) := by
  obtain ⟨es, _, hr⟩ := fini_safe h
  exact ⟨hr, ⟨.inl rfl, rfl, rfl, rfl⟩, rfl, hd, hq⟩

theorem parse_line {d : Nat} {p : Parser} (hf : Fresh d p) (hc : Chars d 34) {fs : List (List Nat)} {t e : List Nat} (hw : WrittenRow d 34 fs t)
    (hb : ¬ Blanks d t) (he : LineEnd e) : ∃ r u c, parse p (t ++ e) = .ok r ∧ fini r.2 = .ok u ∧ r.1 ++ u.1 = rowEvents fs c ∧ Fresh d u.2 := by
  obtain ⟨hr, hbt, hst, rfl, hq⟩ := hf
  rw [← hq] at hw hc
  obtain ⟨q, h1, h2, h3, h4, h5⟩ := runs_line hbt hst hc hw hb he
  have hne : t ++ e ≠ [] := by
    rcases he with rfl | rfl <;> simp
  obtain ⟨m, hm, hp, hrd⟩ := h1.parse hr h2.inv hne
  refine ⟨_, _, _, hp, fini_row h3, List.append_nil _, fresh_clear hrd h4 (h5.trans hq)⟩

theorem parse_last {d : Nat} {p : Parser} (hf : Fresh d p) (hc : Chars d 34) {fs : List (List Nat)} {t : List Nat} (hw : WrittenRow d 34 fs t)
    (hb : ¬ Blanks d t) : ∃ r u c, parse p t = .ok r ∧ fini r.2 = .ok u ∧ r.1 ++ u.1 = rowEvents fs c ∧ Fresh d u.2 := by
  obtain ⟨hr, hbt, hst, rfl, hq⟩ := hf
  rw [← hq] at hw hc
  obtain ⟨fs', f, q, rfl, h1, h2, h3, h4, h5⟩ := runs_row hbt hc hw (.inr hb)
  have hne : t ≠ [] := by
    rintro rfl
    exact hb (by intro c hc; simp at hc)
  obtain ⟨m, hm, hp, hrd⟩ := h1.parse hr h2.1 hne
  have h2' : AtEnd (q.sz m) f := by
    obtain ⟨hi, h | h | ⟨hb, hf⟩⟩ := h2
    · exact ⟨hi, .inl h⟩
    · exact ⟨hi, .inr (.inl h)⟩
    · exact ⟨hi, .inr (.inr ⟨⟨hb.st, hb.buf, hb.quoted, hb.spaces⟩, hf⟩)⟩
  refine ⟨_, _, -1, hp, h2'.fini h5 hm, ?_, fresh_clear hrd h3 (h4.trans hq)⟩
  unfold rowEvents
  simp

/-! ## The callbacks -/

/-- column `i` of a row whose first column has number `k` -/
def colk (k : Int) (fs : List (List Nat)) (i : Int) : Option (List Nat) := if k ≤ i then fs[(i - k).toNat]? else none

theorem colk_nil (k i : Int) : colk k [] i = none := by
  unfold colk
  split <;> rfl

theorem colk_cons (k : Int) (f : List Nat) (fs : List (List Nat)) (i : Int) : colk k (f :: fs) i = if k = i then some f else colk (k + 1) fs i := by
  unfold colk
  by_cases h : k = i
  · subst h
    simp
  · rw [if_neg h]
    by_cases h1 : k ≤ i
    · rw [if_pos h1, if_pos (by omega)]
      have e : (i - k).toNat = (i - (k + 1)).toNat + 1 := by omega
      rw [e, List.getElem?_cons_succ]
    · rw [if_neg h1, if_neg (by omega)]

/-- the columns of a reader have different meanings -/
def DistinctC (c : CsvParams) : Prop :=
  (c.idField = c.timeField → c.idField = 0) ∧ (c.idField = c.sizeField → c.idField = 0) ∧ (c.idField = c.cntField → c.idField = 0) ∧
  (c.timeField = c.sizeField → c.timeField = 0) ∧ (c.timeField = c.cntField → c.timeField = 0) ∧ (c.sizeField = c.cntField → c.sizeField = 0)

/-- the id in a field -/
def idOf (hash : List Nat → Nat) (isNum : Bool) (s : List Nat) : Int := if isNum then ((strtoull (cstr s)).getD 0 : Nat) else (hash s % 2 ^ 64 : Nat)

theorem set_same (v : Vals) (f : Fld) (x : Int) : (v.set f x) f = x := by simp [Vals.set]
theorem set_other (v : Vals) {f g : Fld} (x : Int) (h : g ≠ f) : (v.set f x) g = v g := by simp [Vals.set, h]

theorem callbacks_cons (hash : List Nat → Nat) (s : List Nat) (es : List Ev) (rd : TReader) (c : CsvParams) (q : Request) :
    callbacks hash (.field s :: es) rd c q = (cb1 hash rd c q s >>= fun r => callbacks hash es { rd with nLeft := r.2 } { c with idx := c.idx + 1 } r.1) := rfl

theorem callbacks_fields (hash : List Nat → Nat) (es : List Ev) :
    ∀ (fs : List (List Nat)) (rd : TReader) (c : CsvParams) (q : Request), 1 ≤ c.idx → DistinctC c →
      (∀ f, colk c.idx fs c.timeField = some f → ∃ v, atofU64 (cstr f) = .ok v) →
      ∃ q' n k, callbacks hash (fs.map .field ++ es) rd c q = callbacks hash es { rd with nLeft := n } { c with idx := k } q' ∧ q'.valid = q.valid ∧
        q'.vals .id = ((colk c.idx fs c.idField).map (idOf hash rd.idIsNum)).getD (q.vals .id) ∧
        (∀ f, colk c.idx fs c.timeField = some f → ∀ v, atofU64 (cstr f) = .ok v → q'.vals .time = sWrap 64 v) ∧
        (colk c.idx fs c.timeField = none → q'.vals .time = q.vals .time) ∧
        q'.vals .size = ((colk c.idx fs c.sizeField).map (fun f => (((strtoull (cstr f)).getD 0 % 2 ^ 32 : Nat) : Int))).getD (q.vals .size) ∧
        n = ((colk c.idx fs c.cntField).map (fun f => sWrap 32 (((strtoull (cstr f)).getD 0 : Nat) - 1 : Int))).getD rd.nLeft := by
  intro fs
  induction fs with
  | nil =>
    intro rd c q _ _ _
    refine ⟨q, rd.nLeft, c.idx, rfl, rfl, ?_⟩
    simp [colk_nil]
  | cons f fs ih =>
    intro rd c q hk hd ht
    obtain ⟨d1, d2, d3, d4, d5, d6⟩ := hd
    have go : ∀ (q1 : Request) (n1 : Int), cb1 hash rd c q f = .ok (q1, n1) → q1.valid = q.valid →
        q1.vals .id = (if c.idx = c.idField then idOf hash rd.idIsNum f else q.vals .id) →
        (∀ v, c.idx = c.timeField → atofU64 (cstr f) = .ok v → q1.vals .time = sWrap 64 v) → (c.idx ≠ c.timeField → q1.vals .time = q.vals .time) →
        q1.vals .size = (if c.idx = c.sizeField then (((strtoull (cstr f)).getD 0 % 2 ^ 32 : Nat) : Int) else q.vals .size) →
        n1 = (if c.idx = c.cntField then sWrap 32 (((strtoull (cstr f)).getD 0 : Nat) - 1 : Int) else rd.nLeft) →
        ∃ q' n k, callbacks hash ((f :: fs).map .field ++ es) rd c q = callbacks hash es { rd with nLeft := n } { c with idx := k } q' ∧ q'.valid = q.valid ∧
        q'.vals .id = ((colk c.idx (f :: fs) c.idField).map (idOf hash rd.idIsNum)).getD (q.vals .id) ∧
        (∀ g, colk c.idx (f :: fs) c.timeField = some g → ∀ v, atofU64 (cstr g) = .ok v → q'.vals .time = sWrap 64 v) ∧
        (colk c.idx (f :: fs) c.timeField = none → q'.vals .time = q.vals .time) ∧
        q'.vals .size = ((colk c.idx (f :: fs) c.sizeField).map (fun f => (((strtoull (cstr f)).getD 0 % 2 ^ 32 : Nat) : Int))).getD (q.vals .size) ∧
        n = ((colk c.idx (f :: fs) c.cntField).map (fun f => sWrap 32 (((strtoull (cstr f)).getD 0 : Nat) - 1 : Int))).getD rd.nLeft := by
      intro q1 n1 h1 hv hid htm htn hsz hn
      have hlow : ∀ i, c.idx = i → colk (c.idx + 1) fs i = none := by
        rintro i rfl
        unfold colk
        rw [if_neg (by omega)]
      obtain ⟨q', n, k, a1, a2, a3, a4, a5, a6, a7⟩ := ih { rd with nLeft := n1 } { c with idx := c.idx + 1 } q1 (by show 1 ≤ c.idx + 1; omega) ⟨d1, d2, d3, d4, d5, d6⟩ (by
        intro g hg
        have hg : colk (c.idx + 1) fs c.timeField = some g := hg
        refine ht g ?_
        rw [colk_cons]
        by_cases e : c.idx = c.timeField
        · rw [hlow _ e] at hg; cases hg
        · rw [if_neg e]; exact hg)
      have a3 : q'.vals .id = ((colk (c.idx + 1) fs c.idField).map (idOf hash rd.idIsNum)).getD (q1.vals .id) := a3
      have a4 : ∀ g, colk (c.idx + 1) fs c.timeField = some g → ∀ v, atofU64 (cstr g) = .ok v → q'.vals .time = sWrap 64 v := a4
      have a5 : colk (c.idx + 1) fs c.timeField = none → q'.vals .time = q1.vals .time := a5
      have a6 : q'.vals .size = ((colk (c.idx + 1) fs c.sizeField).map (fun f => (((strtoull (cstr f)).getD 0 % 2 ^ 32 : Nat) : Int))).getD (q1.vals .size) := a6
      have a7 : n = ((colk (c.idx + 1) fs c.cntField).map (fun f => sWrap 32 (((strtoull (cstr f)).getD 0 : Nat) - 1 : Int))).getD n1 := a7
      refine ⟨q', n, k, ?_, a2.trans hv, ?_, ?_, ?_, ?_, ?_⟩
      · rw [List.map_cons, List.cons_append]
        rw [callbacks_cons, h1, Res.bind_ok, a1]
      · rw [a3, hid, colk_cons]
        by_cases e : c.idx = c.idField
        · rw [if_pos e, if_pos e, hlow _ e]; rfl
        · rw [if_neg e, if_neg e]
      · intro g hg v hv
        rw [colk_cons] at hg
        by_cases e : c.idx = c.timeField
        · rw [if_pos e] at hg
          injection hg with hg
          subst hg
          rw [a5 (hlow _ e)]
          exact htm v e hv
        · rw [if_neg e] at hg
          exact a4 g hg v hv
      · intro hg
        rw [colk_cons] at hg
        by_cases e : c.idx = c.timeField
        · rw [if_pos e] at hg; cases hg
        · rw [if_neg e] at hg
          rw [a5 hg, htn e]
      · rw [a6, hsz, colk_cons]
        by_cases e : c.idx = c.sizeField
        · rw [if_pos e, if_pos e, hlow _ e]; rfl
        · rw [if_neg e, if_neg e]
      · rw [a7, hn, colk_cons]
        by_cases e : c.idx = c.cntField
        · rw [if_pos e, if_pos e, hlow _ e]; rfl
        · rw [if_neg e, if_neg e]
    by_cases e1 : c.idx = c.idField
    · have n1 : c.idx ≠ c.timeField := by rintro e; have := d1 (by omega); omega
      have n2 : c.idx ≠ c.sizeField := by rintro e; have := d2 (by omega); omega
      have n3 : c.idx ≠ c.cntField := by rintro e; have := d3 (by omega); omega
      refine go { q with vals := q.vals.set .id (idOf hash rd.idIsNum f) } rd.nLeft (by unfold cb1; rw [if_pos e1]; unfold idOf; cases rd.idIsNum <;> rfl) rfl ?_ (fun v e => absurd e n1) (fun _ => set_other (f := .id) (g := .time) q.vals (idOf hash rd.idIsNum f) (by decide)) ?_ ?_
      · rw [if_pos e1]
        simp only [set_same]
      · rw [if_neg n2]; exact set_other (f := .id) (g := .size) q.vals (idOf hash rd.idIsNum f) (by decide)
      · rw [if_neg n3]
    by_cases e2 : c.idx = c.timeField
    · have n2 : c.idx ≠ c.sizeField := by rintro e; have := d4 (by omega); omega
      have n3 : c.idx ≠ c.cntField := by rintro e; have := d5 (by omega); omega
      obtain ⟨v, hv⟩ := ht f (by rw [colk_cons, if_pos e2])
      refine go { q with vals := q.vals.set .time (sWrap 64 v) } rd.nLeft (by unfold cb1; rw [if_neg e1, if_pos e2, hv, Res.bind_ok]) rfl ?_ ?_ (fun h => absurd e2 h) ?_ ?_
      · rw [if_neg e1]; exact set_other (f := .time) (g := .id) q.vals (sWrap 64 v) (by decide)
      · intro w _ hw
        have hw : v = w := by
          rw [hv] at hw
          injection hw
        rw [← hw]
        simp only [set_same]
      · rw [if_neg n2]; exact set_other (f := .time) (g := .size) q.vals (sWrap 64 v) (by decide)
      · rw [if_neg n3]
    by_cases e3 : c.idx = c.sizeField
    · have n3 : c.idx ≠ c.cntField := by rintro e; have := d6 (by omega); omega
      refine go { q with vals := q.vals.set .size (((strtoull (cstr f)).getD 0 % 2 ^ 32 : Nat) : Int) } rd.nLeft (by unfold cb1; rw [if_neg e1, if_neg e2, if_pos e3]) rfl ?_ (fun v e => absurd e e2) (fun _ => set_other (f := .size) (g := .time) q.vals (((strtoull (cstr f)).getD 0 % 2 ^ 32 : Nat) : Int) (by decide)) ?_ ?_
      · rw [if_neg e1]; exact set_other (f := .size) (g := .id) q.vals (((strtoull (cstr f)).getD 0 % 2 ^ 32 : Nat) : Int) (by decide)
      · rw [if_pos e3]; simp only [set_same]
      · rw [if_neg n3]
    by_cases e4 : c.idx = c.cntField
    · refine go q (sWrap 32 (((strtoull (cstr f)).getD 0 : Nat) - 1 : Int)) (by unfold cb1; rw [if_neg e1, if_neg e2, if_neg e3, if_pos e4]) rfl ?_ (fun v e => absurd e e2) (fun _ => rfl) ?_ ?_
      · rw [if_neg e1]
      · rw [if_neg e3]
      · rw [if_pos e4]
    · refine go q rd.nLeft (by unfold cb1; rw [if_neg e1, if_neg e2, if_neg e3, if_neg e4]) rfl ?_ (fun v e => absurd e e2) (fun _ => rfl) ?_ ?_
      · rw [if_neg e1]
      · rw [if_neg e3]
      · rw [if_neg e4]

/-! ## One row -/

/-- a reader configured by `p` whose next byte to read is the first of `rest` -/
structure At (d : Nat) (p : Params) (b : Bool) (rd : TReader) (c : CsvParams) (rest : List Nat) : Prop where
  csv : rd.csv = some c
  fresh : Fresh d c.parser
  idx : c.idx = 1
  fields : c.idField = p.idField ∧ c.timeField = p.timeField ∧ c.sizeField = p.sizeField ∧ c.cntField = p.cntField
  conf : rd.idIsNum = p.idIsNum ∧ rd.ignoreZero = p.ignoreZero ∧ rd.ignoreSize = p.ignoreSize ∧ rd.cap = p.cap
  rest : rd.bytes.drop rd.pos = rest
  mmap : rd.mmapOff < rd.bytes.length
  fwd : rd.fwd = b

/-- the request object between two calls: members without a column keep their initial values -/
def Keeps (p : Params) (q : Request) : Prop := (p.timeField = 0 → q.vals .time = 0) ∧ (p.sizeField = 0 → q.vals .size = 1)

/-- the request object after a row -/
def Holds (x : Item) (q : Request) : Prop := q.vals .time = x.time ∧ q.vals .id = x.id ∧ q.vals .size = x.size

theorem sWrap_small (v : Nat) (h : v < 2 ^ 53) : sWrap 64 v = v := by
  unfold sWrap
  have e1 : (2 : Nat) ^ (64 - 1) = 9223372036854775808 := by decide
  have e2 : (2 : Int) ^ 64 = 18446744073709551616 := by decide
  have e3 : (2 : Int) ^ (64 - 1) = 9223372036854775808 := by decide
  have e4 : (2 : Nat) ^ 53 = 9007199254740992 := by decide
  simp only [e2, e3]
  omega

theorem sWrap_cnt (v : Nat) (h1 : 1 ≤ v) (h : v ≤ 2 ^ 31) : sWrap 32 ((v : Int) - 1) = (v : Int) - 1 := by
  unfold sWrap
  have e2 : (2 : Int) ^ 32 = 4294967296 := by decide
  have e3 : (2 : Int) ^ (32 - 1) = 2147483648 := by decide
  have e4 : (2 : Nat) ^ 31 = 2147483648 := by decide
  simp only [e2, e3]
  omega

theorem time_lt {t : Nat} {f : List Nat} (h : TimeText t f) : t < 2 ^ 53 := by
  cases h with
  | whole h => exact h
  | decimals hg hn =>
    rename_i g
    rw [number_append, number_dec] at hn
    have : t ≤ t * 10 ^ g.length := Nat.le_mul_of_pos_right _ (Nat.pow_pos (by decide))
    omega

theorem cstr_dec' (n : Nat) : cstr (dec n) = dec n := by
  have := cstr_dec n [] (by simp)
  rwa [List.append_nil] at this

theorem col_zero (fs : List (List Nat)) : col fs 0 = none := by unfold col; rw [if_neg (by decide)]

theorem row_step {hash : List Nat → Nat} {d : Nat} {p : Params} {b : Bool} (hd : Distinct p) {fs : List (List Nat)} {x : Item} (hx : RowSays hash p fs x)
    {rd : TReader} {c : CsvParams} {rest0 : List Nat} (ha : At d p b rd c rest0) {q : Request} (hq : Keeps p q) (hn : p.cntField = 0 → rd.nLeft = 0)
    {l rest : List Nat} (hl : getline rd.bytes rd.pos = some l) (hr : rest0 = l ++ rest)
    (hp : ∃ r u k, parse c.parser l = .ok r ∧ fini r.2 = .ok u ∧ r.1 ++ u.1 = rowEvents fs k ∧ Fresh d u.2) :
    ∃ c' rd' q', csvRow hash rd c q = .ok (some (rd', q')) ∧ At d p b rd' c' rest ∧ Holds x q' ∧ q'.valid = q.valid ∧ Keeps p q' ∧ rd'.nLeft = (x.cnt : Int) - 1 ∧
      rd'.nRead = rd.nRead ∧ rd'.bytes = rd.bytes ∧ rd'.start = rd.start ∧ rd'.pos = rd.pos + l.length := by
  obtain ⟨⟨r, es⟩, ⟨es', ps⟩, k, h1, h2, h3, h4⟩ := hp
  obtain ⟨f1, f2, f3, f4⟩ := ha.fields
  have htime : ∀ f, col fs p.timeField = some f → atofU64 (cstr f) = .ok x.time ∧ x.time < 2 ^ 53 := by
    intro f hf
    have := hx.time
    by_cases h0 : p.timeField = 0
    · rw [h0, col_zero] at hf; cases hf
    · rw [if_neg h0] at this
      obtain ⟨g, hg, ht⟩ := this
      rw [hf] at hg
      injection hg with hg
      subst hg
      exact ⟨atof_time ht, time_lt ht⟩
  obtain ⟨q', n, k', a1, a2, a3, a4, a5, a6, a7⟩ := callbacks_fields hash [.row k] fs { rd with pos := rd.pos + l.length } { c with parser := ps } q (by show 1 ≤ c.idx; rw [ha.idx])
    (by unfold DistinctC; simp only; rw [f1, f2, f3, f4]; exact hd)
    (by
      intro f hf
      have hf : colk c.idx fs c.timeField = some f := hf
      rw [ha.idx, f2] at hf
      exact ⟨_, (htime f hf).1⟩)
  have a3 : q'.vals .id = ((colk c.idx fs c.idField).map (idOf hash rd.idIsNum)).getD (q.vals .id) := a3
  have a4 : ∀ g, colk c.idx fs c.timeField = some g → ∀ v, atofU64 (cstr g) = .ok v → q'.vals .time = sWrap 64 v := a4
  have a5 : colk c.idx fs c.timeField = none → q'.vals .time = q.vals .time := a5
  have a6 : q'.vals .size = ((colk c.idx fs c.sizeField).map (fun f => (((strtoull (cstr f)).getD 0 % 2 ^ 32 : Nat) : Int))).getD (q.vals .size) := a6
  have a7 : n = ((colk c.idx fs c.cntField).map (fun f => sWrap 32 (((strtoull (cstr f)).getD 0 : Nat) - 1 : Int))).getD rd.nLeft := a7
  rw [ha.idx, f1] at a3
  rw [ha.idx, f2] at a4 a5
  rw [ha.idx, f3] at a6
  rw [ha.idx, f4] at a7
  have ecol : ∀ i, colk 1 fs i = col fs i := fun _ => rfl
  have hid : q'.vals .id = x.id := by
    obtain ⟨f, hf, hif⟩ := hx.id
    rw [a3, ecol, hf, Option.map_some, Option.getD_some, ha.conf.1]
    unfold idOf
    cases hnum : p.idIsNum with
    | true =>
      rw [hnum, if_pos rfl] at hif
      rw [if_pos rfl, hif.1, cstr_dec', strtoull_dec hif.2]
      rfl
    | false =>
      rw [hnum, if_neg (by decide)] at hif
      rw [if_neg (by decide), hif]
  have htm : q'.vals .time = x.time ∧ (p.timeField = 0 → q'.vals .time = 0) := by
    have := hx.time
    by_cases h0 : p.timeField = 0
    · rw [if_pos h0] at this
      have e := a5 (by rw [ecol, h0, col_zero])
      rw [hq.1 h0] at e
      exact ⟨by rw [e, this]; rfl, fun _ => e⟩
    · rw [if_neg h0] at this
      obtain ⟨f, hf, _⟩ := this
      have h := htime f hf
      exact ⟨by rw [a4 f hf _ h.1, sWrap_small _ h.2], fun h => absurd h h0⟩
  have hsz : q'.vals .size = x.size ∧ (p.sizeField = 0 → q'.vals .size = 1) := by
    have := hx.size
    by_cases h0 : p.sizeField = 0
    · rw [if_pos h0] at this
      rw [ecol, h0, col_zero, Option.map_none, Option.getD_none, hq.2 h0] at a6
      exact ⟨by rw [a6, this]; rfl, fun _ => a6⟩
    · rw [if_neg h0] at this
      rw [ecol, this.1, Option.map_some, Option.getD_some, cstr_dec', strtoull_dec (Nat.lt_trans this.2 (by decide)), Option.getD_some, Nat.mod_eq_of_lt this.2] at a6
      exact ⟨a6, fun h => absurd h h0⟩
  have hcn : n = (x.cnt : Int) - 1 := by
    have := hx.cnt
    by_cases h0 : p.cntField = 0
    · rw [if_pos h0] at this
      rw [ecol, h0, col_zero, Option.map_none, Option.getD_none, hn h0] at a7
      rw [a7, this]
      rfl
    · rw [if_neg h0] at this
      rw [ecol, this.1, Option.map_some, Option.getD_some, cstr_dec', strtoull_dec (Nat.lt_of_le_of_lt this.2.2 (by decide)), Option.getD_some, sWrap_cnt _ this.2.1 this.2.2] at a7
      exact a7
  refine ⟨{ c with parser := ps, idx := 1 }, { rd with pos := rd.pos + l.length, nLeft := n, csv := some { c with parser := ps, idx := 1 } }, q', ?_, ?_, ⟨htm.1, hid, hsz.1⟩, a2, ⟨htm.2, hsz.2⟩, hcn, rfl, rfl, rfl, rfl⟩
  · unfold csvRow
    rw [hl]
    simp only
    rw [h1, Res.bind_ok]
    simp only at h2 h3
    simp only
    rw [h2, Res.bind_ok]
    simp only
    rw [h3]
    unfold rowEvents
    rw [a1]
    rfl
  · refine ⟨rfl, h4, rfl, ⟨f1, f2, f3, f4⟩, ha.conf, drop_after ?_, ha.mmap, ha.fwd⟩
    rw [ha.rest, hr]

/-- is a row dropped? -/
def dropped (p : Params) (x : Item) : Bool := p.ignoreZero && decide (x.size = 0)

theorem csvRead_lines {hash : List Nat → Nat} {d : Nat} {p : Params} (hd : Distinct p) (hc : Chars d 34) :
    ∀ (rows : List (List (List Nat))) (xs : List Item) (text : List Nat), Lines d rows text → List.Forall₂ (RowSays hash p) rows xs →
      ∀ (fuel : Nat), rows.length < fuel → ∀ (rd : TReader) (c : CsvParams) (q : Request), At d p true rd c text → Keeps p q → (p.cntField = 0 → rd.nLeft = 0) →
      ((∀ x ∈ xs, dropped p x = true) ∧ ∃ rd' q', csvRead hash fuel rd q = .ok (1, rd', q')) ∨
      ∃ pre x post rows' text' c' rd' q', xs = pre ++ x :: post ∧ (∀ y ∈ pre, dropped p y = true) ∧ dropped p x = false ∧ Lines d rows' text' ∧
        List.Forall₂ (RowSays hash p) rows' post ∧ csvRead hash fuel rd q = .ok (0, rd', q') ∧ At d p true rd' c' text' ∧ Holds x q' ∧ q'.valid = q.valid ∧ Keeps p q' ∧
        rd'.nLeft = (x.cnt : Int) - 1 ∧ (1 < x.cnt → rd'.lastTime = x.time) ∧ rd'.nRead = rd.nRead ∧ 1 ≤ x.cnt ∧ (p.cntField = 0 → x.cnt = 1) := by
  intro rows
  induction rows with
  | nil =>
    intro xs text hL hF fuel hfuel rd c q ha hq hn
    cases hF
    refine .inl ⟨by simp, rd, { q with valid := false }, ?_⟩
    generalize hrows : ([] : List (List (List Nat))) = rows at hL
    cases hL with
    | nil =>
      cases fuel with
      | zero => simp at hfuel
      | succ fuel =>
        unfold csvRead
        simp only [ha.csv]
        unfold csvRow
        rw [getline_end ha.rest]
        rfl
    | last => cases hrows
    | cons => cases hrows
  | cons fs rows ih =>
    intro xs text hL hF fuel hfuel rd c q ha hq hn
    cases hF with
    | cons hx hF =>
      rename_i x xs
      cases fuel with
      | zero => simp at hfuel
      | succ fuel =>
        have key : ∃ c' rd' q' text', Lines d rows text' ∧ csvRow hash rd c q = .ok (some (rd', q')) ∧ At d p true rd' c' text' ∧ Holds x q' ∧ q'.valid = q.valid ∧ Keeps p q' ∧
            rd'.nLeft = (x.cnt : Int) - 1 ∧ rd'.nRead = rd.nRead ∧ rd'.bytes = rd.bytes ∧ rd'.start = rd.start := by
          generalize hrows : fs :: rows = rs at hL
          cases hL with
          | nil => cases hrows
          | last hw ht hb =>
            injection hrows with e1 e2
            subst e1 e2
            have hne : text ≠ [] := by
              rintro rfl
              exact hb (by intro c hc; simp at hc)
            obtain ⟨c', rd', q', h⟩ := row_step (rest := []) hd hx ha hq hn (getline_last ha.rest hne ht) (List.append_nil _).symm (parse_last ha.fresh hc hw hb)
            obtain ⟨h1, h2, h3, h4, h5, h6, h7, h8, h9, h10⟩ := h
            exact ⟨c', rd', q', [], .nil, h1, h2, h3, h4, h5, h6, h7, h8, h9⟩
          | cons hw ht hb he hL =>
            rename_i rest
            injection hrows with e1 e2
            subst e1 e2
            obtain ⟨c', rd', q', h⟩ := row_step (rest := rest) hd hx ha hq hn (getline_row ha.rest ht he) rfl (parse_line ha.fresh hc hw hb he)
            obtain ⟨h1, h2, h3, h4, h5, h6, h7, h8, h9, h10⟩ := h
            exact ⟨c', rd', q', _, hL, h1, h2, h3, h4, h5, h6, h7, h8, h9⟩
        obtain ⟨c', rd', q', text', hL', hrow, ha', hh, hv, hk, hnl, hnr, hby⟩ := key
        have hexp : csvRead hash (fuel + 1) rd q =
            (if q'.vals .size = 0 ∧ rd'.ignoreZero then csvRead hash fuel rd' q' else .ok (0, if rd'.nLeft > 0 then { rd' with lastTime := q'.vals .time } else rd', q')) := by
          conv => lhs; unfold csvRead
          simp only [ha.csv, hrow, Res.bind_ok, ha'.fwd, if_true]
        have hdr : (q'.vals .size = 0 ∧ rd'.ignoreZero = true) ↔ dropped p x = true := by
          rw [hh.2.2, ha'.conf.2.1]
          unfold dropped
          simp only [Bool.and_eq_true, decide_eq_true_eq]
          constructor
          · rintro ⟨a, b⟩; exact ⟨b, by omega⟩
          · rintro ⟨a, b⟩; exact ⟨by omega, a⟩
        cases hdx : dropped p x with
        | true =>
          rw [hexp, if_pos (hdr.2 hdx)]
          rcases ih xs text' hL' hF fuel (by simpa using hfuel) rd' c' q' ha' hk (by
            intro h0
            rw [hnl]
            have := hx.cnt
            rw [if_pos h0] at this
            rw [this]; rfl) with h | h
          · refine .inl ⟨?_, h.2⟩
            intro y hy
            rcases List.mem_cons.1 hy with rfl | hy
            · exact hdx
            · exact h.1 y hy
          · obtain ⟨pre, y, post, rows', text'', c'', rd'', q'', g1, g2, g3, g4, g5, g6, g7, g8, g9, g10, g11, g12, g13, g14⟩ := h
            refine .inr ⟨x :: pre, y, post, rows', text'', c'', rd'', q'', by rw [g1]; rfl, ?_, g3, g4, g5, g6, g7, g8, g9.trans hv, g10, g11, g12, g13.trans hnr, g14⟩
            intro z hz
            rcases List.mem_cons.1 hz with rfl | hz
            · exact hdx
            · exact g2 z hz
        | false =>
          rw [hexp, if_neg (fun h => by rw [hdr.1 h] at hdx; cases hdx)]
          refine .inr ⟨[], x, xs, rows, text', c', _, q', rfl, by simp, hdx, hL', hF, rfl, ?_, hh, hv, hk, ?_, ?_, ?_, ?_, ?_⟩
          · split
            · exact ⟨ha'.csv, ha'.fresh, ha'.idx, ha'.fields, ha'.conf, ha'.rest, ha'.mmap, ha'.fwd⟩
            · exact ha'
          · split <;> exact hnl
          · intro hlt
            rw [if_pos (by omega)]
            exact hh.1
          · split <;> exact hnr
          · have := hx.cnt
            split at this <;> omega
          · intro h0
            have := hx.cnt
            rwa [if_pos h0] at this

/-! ## All rows -/

/-- what is seen of one row -/
def seen (p : Params) (x : Item) : Int × Int × Int := ((x.time : Int), (x.id : Int), if p.ignoreSize then (1 : Int) else (x.size : Int))

/-- what is still to be delivered -/
def todo (p : Params) (done : Nat) (l : List (Int × Int × Int)) : List (Int × Int × Int) := if p.cap > 1 then l.take (p.cap.toNat - done) else l

theorem requests_cons (p : Params) (x : Item) (xs : List Item) :
    requests p (x :: xs) = if dropped p x then requests p xs else List.replicate x.cnt (seen p x) ++ requests p xs := by
  unfold requests
  rw [List.filter_cons]
  unfold dropped
  cases p.ignoreZero && decide (x.size = 0) <;> rfl

theorem requests_pre (p : Params) {pre : List Item} (h : ∀ y ∈ pre, dropped p y = true) (xs : List Item) : requests p (pre ++ xs) = requests p xs := by
  induction pre with
  | nil => rfl
  | cons y pre ih =>
    rw [List.cons_append, requests_cons, if_pos (h y (by simp)), ih (fun z hz => h z (List.mem_cons_of_mem _ hz))]

theorem holds_size {p : Params} {x : Item} {q : Request} (h : Holds x q) (b : Bool) (hb : b = p.ignoreSize) :
    shown (if b then { q with vals := q.vals.set .size 1 } else q) = seen p x := by
  subst hb
  unfold shown seen
  cases p.ignoreSize with
  | true =>
    simp only [if_true]
    rw [set_other (f := .size) (g := .time) _ _ (by decide), set_other (f := .size) (g := .id) _ _ (by decide), set_same, h.1, h.2.1]
  | false =>
    simp only [Bool.false_eq_true, if_false]
    rw [h.1, h.2.1, h.2.2]

theorem keeps_size {p : Params} {q : Request} (h : Keeps p q) (b : Bool) : Keeps p (if b then { q with vals := q.vals.set .size 1 } else q) := by
  cases b with
  | true => exact ⟨fun h0 => (set_other (f := .size) (g := .time) q.vals 1 (by decide)).trans (h.1 h0), fun _ => set_same q.vals .size 1⟩
  | false => exact h

/-- the repeats of a row, when there is no cap -/
theorem readAll_left {hash : List Nat → Nat} {d : Nat} {p : Params} (hcap : p.cap ≤ 1) (y : Int × Int × Int) {text : List Nat} {out : List (Int × Int × Int)}
    (hgo : ∀ (fuel : Nat) (rd : TReader) (c : CsvParams) (q : Request), out.length < fuel → At d p true rd c text → Keeps p q → rd.nLeft = 0 →
      ∃ rs rd', readAll hash fuel rd q = .ok (rs, rd') ∧ rs.map shown = out ∧ ∀ r ∈ rs, r.valid = true) :
    ∀ (k fuel : Nat) (rd : TReader) (c : CsvParams) (q : Request), k + out.length < fuel → At d p true rd c text → Keeps p q → rd.nLeft = k → (0 < k → rd.lastTime = y.1) →
      shown q = y → (p.ignoreSize = true → y.2.2 = 1) → q.valid = true →
      ∃ rs rd', readAll hash fuel rd q = .ok (rs, rd') ∧ rs.map shown = List.replicate k y ++ out ∧ ∀ r ∈ rs, r.valid = true := by
  intro k
  induction k with
  | zero =>
    intro fuel rd c q hf ha hq hn _ _ _ _
    exact hgo fuel rd c q (by omega) ha hq hn
  | succ k ih =>
    intro fuel rd c q hf ha hq hn hl hs hi hv
    cases fuel with
    | zero => omega
    | succ fuel =>
      have hl := hl (by omega)
      obtain ⟨t, i, s⟩ := y
      simp only [shown, Prod.mk.injEq] at hs
      obtain ⟨s1, s2, s3⟩ := hs
      have h1 : readOne hash rd q = .ok (0, { rd with nLeft := rd.nLeft - 1 },
          (if rd.ignoreSize then { q with vals := (q.vals.set .time rd.lastTime).set .size 1 } else { q with vals := q.vals.set .time rd.lastTime })) := by
        unfold readOne readWith
        rw [if_neg (by have := ha.mmap; omega), if_neg (by rw [ha.conf.2.2.2]; omega), if_pos (by omega)]
        rfl
      have hq1 : ∃ q1, readOne hash rd q = .ok (0, { rd with nLeft := rd.nLeft - 1 }, q1) ∧ shown q1 = (t, i, s) ∧ q1.valid = true ∧ Keeps p q1 := by
        refine ⟨_, h1, ?_, ?_, ?_⟩
        · cases hb : rd.ignoreSize with
          | true =>
            have : s = 1 := hi (by rw [← ha.conf.2.2.1]; exact hb)
            simp only [if_true, shown]
            rw [set_other (f := .size) (g := .time) _ _ (by decide), set_same, set_other (f := .size) (g := .id) _ _ (by decide), set_other (f := .time) (g := .id) _ _ (by decide), set_same, hl, s2, this]
          | false =>
            simp only [Bool.false_eq_true, if_false, shown]
            rw [set_same, set_other (f := .time) (g := .id) _ _ (by decide), set_other (f := .time) (g := .size) _ _ (by decide), hl, s2, s3]
        · split <;> exact hv
        · have hk : Keeps p { q with vals := q.vals.set .time rd.lastTime } := by
            refine ⟨fun h0 => ?_, fun h0 => ?_⟩
            · have := hq.1 h0
              show (q.vals.set .time rd.lastTime) .time = 0
              rw [set_same, hl, ← s1, this]
            · have := hq.2 h0
              show (q.vals.set .time rd.lastTime) .size = 1
              rw [set_other (f := .time) (g := .size) _ _ (by decide), this]
          exact keeps_size hk rd.ignoreSize
      obtain ⟨q1, h1, g1, g2, g3⟩ := hq1
      obtain ⟨rs, rd', r1, r2, r3⟩ := ih fuel { rd with nLeft := rd.nLeft - 1 } c q1 (by omega) ⟨ha.csv, ha.fresh, ha.idx, ha.fields, ha.conf, ha.rest, ha.mmap, ha.fwd⟩ g3
        (by show rd.nLeft - 1 = k; omega) (fun _ => hl) g1 hi g2
      refine ⟨q1 :: rs, rd', ?_, ?_, ?_⟩
      · unfold readAll
        rw [h1, Res.bind_ok]
        simp only [ne_eq, not_true_eq_false, if_false]
        rw [r1, Res.bind_ok]
      · rw [List.map_cons, r2, g1]
        rfl
      · intro r hr
        rcases List.mem_cons.1 hr with rfl | hr
        · exact g2
        · exact r3 r hr

theorem rows_le {d : Nat} {rows : List (List (List Nat))} {text : List Nat} (h : Lines d rows text) : rows.length ≤ text.length := by
  induction h with
  | nil => simp
  | last hw ht hb =>
    rename_i fs t
    have : t ≠ [] := by
      rintro rfl
      exact hb (by intro c hc; simp at hc)
    have := List.length_pos_iff.2 this
    simp only [List.length_cons, List.length_nil]
    omega
  | cons hw ht hb he hL ih =>
    rename_i fs t e rows rest
    have : 0 < e.length := by rcases he with rfl | rfl <;> simp
    simp only [List.length_cons, List.length_append]
    omega

theorem readAll_lines {hash : List Nat → Nat} {d : Nat} {p : Params} (hd : Distinct p) (hc : Chars d 34) (hcap : p.cap ≤ 1 ∨ p.cntField = 0) (n : Nat) :
    ∀ (rows : List (List (List Nat))) (xs : List Item) (text : List Nat), xs.length = n → Lines d rows text → List.Forall₂ (RowSays hash p) rows xs →
      ∀ (fuel : Nat) (rd : TReader) (c : CsvParams) (q : Request), (todo p rd.nRead (requests p xs)).length < fuel → At d p true rd c text → Keeps p q → rd.nLeft = 0 →
      ∃ rs rd', readAll hash fuel rd q = .ok (rs, rd') ∧ rs.map shown = todo p rd.nRead (requests p xs) ∧ ∀ r ∈ rs, r.valid = true := by
  induction n using Nat.strongRecOn with
  | ind n ih =>
    intro rows xs text hlen hL hF fuel rd c q hfuel ha hq hn
    cases fuel with
    | zero => omega
    | succ fuel =>
      have hm : ¬ rd.mmapOff ≥ rd.bytes.length := by have := ha.mmap; omega
      by_cases hdone : rd.cap > 1 ∧ (rd.nRead : Int) ≥ rd.cap
      · have h1 : readOne hash rd q = .ok (1, rd, { q with valid := false }) := by
          unfold readOne readWith
          rw [if_neg hm, if_pos hdone]
        refine ⟨[], rd, ?_, ?_, by simp⟩
        · unfold readAll
          rw [h1, Res.bind_ok]
          rfl
        · rw [ha.conf.2.2.2] at hdone
          unfold todo
          rw [if_pos hdone.1]
          have e : p.cap.toNat - rd.nRead = 0 := by omega
          rw [e]
          rfl
      · have hfu : rows.length < rd.bytes.length + 2 := by
          have h1 := rows_le hL
          have h2 : text.length ≤ rd.bytes.length := by rw [← ha.rest]; simp
          omega
        have hq0 : Keeps p { vals := q.vals.set .ttl (-1), hv := 0, valid := true } :=
          ⟨fun h0 => (set_other (f := .ttl) (g := .time) q.vals (-1) (by decide)).trans (hq.1 h0), fun h0 => (set_other (f := .ttl) (g := .size) q.vals (-1) (by decide)).trans (hq.2 h0)⟩
        have hone : readOne hash rd q = (csvRead hash (rd.bytes.length + 2) { rd with nRead := rd.nRead + 1 } { vals := q.vals.set .ttl (-1), hv := 0, valid := true } >>= fun r =>
            .ok (r.1, r.2.1, if r.2.1.ignoreSize then { r.2.2 with vals := r.2.2.vals.set .size 1 } else r.2.2)) := by
          unfold readOne readWith
          rw [if_neg hm, if_neg hdone, if_neg (by omega), ha.csv]
          rfl
        rcases csvRead_lines hd hc rows xs text hL hF (rd.bytes.length + 2) hfu { rd with nRead := rd.nRead + 1 } c { vals := q.vals.set .ttl (-1), hv := 0, valid := true }
          ⟨ha.csv, ha.fresh, ha.idx, ha.fields, ha.conf, ha.rest, ha.mmap, ha.fwd⟩ hq0 (fun _ => hn) with h | h
        · obtain ⟨hall, rd', q', hr⟩ := h
          have he : requests p xs = [] := by
            have := requests_pre p hall []
            rw [List.append_nil] at this
            exact this
          refine ⟨[], rd', ?_, ?_, by simp⟩
          · unfold readAll
            rw [hone, hr, Res.bind_ok, Res.bind_ok]
            rfl
          · rw [he]
            unfold todo
            split <;> simp
        · obtain ⟨pre, x, post, rows', text', c', rd', q', g1, g2, g3, g4, g5, g6, g7, g8, g9, g10, g11, g12, g13, g14, g15⟩ := h
          have hreq : requests p xs = List.replicate x.cnt (seen p x) ++ requests p post := by
            rw [g1, requests_pre p g2, requests_cons, g3]
            rfl
          rw [g6, Res.bind_ok] at hone
          simp only at hone
          generalize hq1 : (if rd'.ignoreSize = true then ({ q' with vals := q'.vals.set .size 1 } : Request) else q') = q1 at hone
          have hs1 : shown q1 = seen p x := by rw [← hq1]; exact holds_size g8 _ g7.conf.2.2.1
          have hk1 : Keeps p q1 := by rw [← hq1]; exact keeps_size g10 _
          have hv1 : q1.valid = true := by
            rw [← hq1]
            split
            · exact g9
            · exact g9
          have hlt : post.length < n := by
            rw [← hlen, g1]
            simp only [List.length_append, List.length_cons]
            omega
          have hcons : ∀ (out : List (Int × Int × Int)), (∃ rs rd'', readAll hash fuel rd' q1 = .ok (rs, rd'') ∧ rs.map shown = out ∧ ∀ r ∈ rs, r.valid = true) →
              ∃ rs rd'', readAll hash (fuel + 1) rd q = .ok (rs, rd'') ∧ rs.map shown = seen p x :: out ∧ ∀ r ∈ rs, r.valid = true := by
            rintro out ⟨rs, rd'', r1, r2, r3⟩
            refine ⟨q1 :: rs, rd'', ?_, ?_, ?_⟩
            · conv => lhs; unfold readAll
              rw [hone, Res.bind_ok]
              simp only [ne_eq, not_true_eq_false, if_false]
              rw [r1, Res.bind_ok]
            · rw [List.map_cons, r2, hs1]
            · intro r hr
              rcases List.mem_cons.1 hr with rfl | hr
              · exact hv1
              · exact r3 r hr
          have hrep : ∃ k, x.cnt = k + 1 := ⟨x.cnt - 1, by omega⟩
          obtain ⟨k, hk⟩ := hrep
          by_cases hcp : p.cap > 1
          · have hc0 : p.cntField = 0 := by rcases hcap with h | h; omega; exact h
            have hk0 : x.cnt = 1 := g15 hc0
            have e : todo p rd.nRead (requests p xs) = seen p x :: todo p rd'.nRead (requests p post) := by
              have hnr : rd'.nRead = rd.nRead + 1 := g13
              have hpos : p.cap.toNat - rd.nRead = (p.cap.toNat - (rd.nRead + 1)) + 1 := by
                rw [ha.conf.2.2.2] at hdone
                have : ¬ ((rd.nRead : Int) ≥ p.cap) := fun h => hdone ⟨hcp, h⟩
                omega
              unfold todo
              rw [if_pos hcp, if_pos hcp, hreq, hk0, hnr, hpos]
              rfl
            rw [e] at hfuel ⊢
            refine hcons _ (ih post.length hlt rows' post text' rfl g4 g5 fuel rd' c' q1 (by simpa using hfuel) g7 hk1 ?_)
            rw [g11, hk0]
            rfl
          · have e : ∀ n l, todo p n l = l := by
              intro n l
              unfold todo
              rw [if_neg hcp]
            rw [e, hreq] at hfuel ⊢
            rw [hk, List.replicate_succ, List.cons_append] at hfuel ⊢
            simp only [List.length_cons, List.length_append, List.length_replicate] at hfuel
            refine hcons _ (readAll_left (by omega) (seen p x) (text := text') (out := requests p post) ?_ k fuel rd' c' q1 (by omega) g7 hk1 ?_ ?_ hs1 ?_ hv1)
            · intro fuel rd c q h1 h2 h3 h4
              have := ih post.length hlt rows' post text' rfl g4 g5 fuel rd c q (by rw [e]; exact h1) h2 h3 h4
              rwa [e] at this
            · rw [g11, hk]
              omega
            · intro hk0
              exact g12 (by omega)
            · intro hi
              unfold seen
              rw [if_pos hi]

end Verif.Text
