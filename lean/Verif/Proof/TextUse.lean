import Verif.Proof.CsvBack
/-!
# Using text readers: tables of lines, resetting, plain text
-/

namespace Verif.Text
open Verif Verif.Csv Verif.CLib Verif.Spec.Csv Verif.Spec.Text
open Verif.Reader (Request Vals Fld sWrap newRequest)

/-! ## Lines -/

theorem rawLines_line {t : List Nat} (ht : 10 ∉ t) (rest : List Nat) : rawLines (t ++ 10 :: rest) = (t ++ [10]) :: rawLines rest := by
  induction t with
  | nil => simp [rawLines]
  | cons c t ih =>
    have hc : c ≠ 10 := by rintro rfl; exact ht (by simp)
    rw [List.cons_append]
    conv => lhs; unfold rawLines
    rw [if_neg hc, ih (fun h => ht (List.mem_cons_of_mem _ h))]
    rfl

theorem rawLines_last {t : List Nat} (ht : 10 ∉ t) (hne : t ≠ []) : rawLines t = [t] := by
  induction t with
  | nil => exact absurd rfl hne
  | cons c t ih =>
    have hc : c ≠ 10 := by rintro rfl; exact ht (by simp)
    unfold rawLines
    rw [if_neg hc]
    cases t with
    | nil => rfl
    | cons b t => rw [ih (fun h => ht (List.mem_cons_of_mem _ h)) (by simp)]

theorem not_blank_ne {d : Nat} {t : List Nat} (h : ¬ Blanks d t) : t ≠ [] := by
  rintro rfl
  exact h (by intro c hc; simp at hc)

theorem lines_table {hash : List Nat → Nat} {d : Nat} {p : Params} {rows : List (List (List Nat))} {text : List Nat} (h : Lines d rows text) :
    ∀ xs, List.Forall₂ (RowSays hash p) rows xs → (∀ l ∈ rawLines text, 2 ≤ l.length ∧ l.length ≤ 1023) → 0 ∉ text →
      ∃ T : List Entry, flat T = text ∧ T.map (·.x) = xs ∧ T.map (·.raw) = rawLines text ∧ (∀ e ∈ T, e.Ok hash d p ∧ Steppable e.raw) ∧
        ∀ L e M, T = L ++ e :: M → M ≠ [] → e.raw.getLast? = some 10 := by
  induction h with
  | nil =>
    intro xs hF _ _
    cases hF
    exact ⟨[], rfl, rfl, rfl, by simp, fun L e M h => by simp at h⟩
  | last hw ht hb =>
    intro xs hF hraw h0
    cases hF with
    | cons hx hF =>
      cases hF
      rename_i fs t x
      rw [rawLines_last ht (not_blank_ne hb)] at hraw ⊢
      have hl := hraw t (by simp)
      refine ⟨[⟨t, fs, x⟩], by simp [flat], rfl, rfl, ?_, ?_⟩
      · intro e he
        simp only [List.mem_singleton] at he
        subst he
        exact ⟨⟨⟨t, [], by simp, hw, ht, hb, .inr rfl⟩, hx⟩, hl.1, hl.2, fun hm => ht (List.dropLast_subset _ hm), h0⟩
      · intro L e M h hM
        cases L with
        | nil => simp only [List.nil_append, List.cons.injEq] at h; exact absurd h.2.symm hM
        | cons y L => simp at h
  | cons hw ht hb he hL ih =>
    intro xs hF hraw h0
    cases hF with
    | cons hx hF =>
      rename_i fs t n rows rest x xs
      obtain ⟨t', e1, h1⟩ := lineEnd_split he t rest ht
      have e2 : t ++ n ++ rest = t' ++ 10 :: rest := by rw [e1]; simp
      rw [e2, rawLines_line h1] at hraw ⊢
      have hl := hraw (t' ++ [10]) (by simp)
      obtain ⟨T, g1, g2, g3, g4, g5⟩ := ih xs hF (fun l hl => hraw l (List.mem_cons_of_mem _ hl)) (fun hm => h0 (List.mem_append_right _ hm))
      refine ⟨⟨t ++ n, fs, x⟩ :: T, ?_, by rw [List.map_cons, g2], by rw [List.map_cons, g3, e1], ?_, ?_⟩
      · rw [flat_cons, g1, ← e2]
      · intro e he'
        rcases List.mem_cons.1 he' with rfl | he'
        · refine ⟨⟨⟨t, n, rfl, hw, ht, hb, .inl he⟩, hx⟩, ?_, ?_, ?_, fun hm => h0 (List.mem_append_left _ hm)⟩
          · show 2 ≤ (t ++ n).length; rw [e1]; exact hl.1
          · show (t ++ n).length ≤ 1023; rw [e1]; exact hl.2
          · show 10 ∉ (t ++ n).dropLast
            rw [e1, List.dropLast_concat]
            exact h1
        · exact g4 e he'
      · intro L e M h hM
        cases L with
        | nil =>
          simp only [List.nil_append, List.cons.injEq] at h
          rw [← h.1]
          show (t ++ n).getLast? = some 10
          rw [e1, List.getLast?_concat]
        | cons y L =>
          simp only [List.cons_append, List.cons.injEq] at h
          exact g5 L e M h.2 hM

theorem requests_kept {p : Params} {hash : List Nat → Nat} {d : Nat} (h0 : p.cntField = 0) {T : List Entry} (h : ∀ e ∈ T, e.Ok hash d p) :
    requests p (T.map (·.x)) = kept p T := by
  induction T with
  | nil => rfl
  | cons e T ih =>
    have hc : e.x.cnt = 1 := by have := (h e (by simp)).row.cnt; rwa [if_pos h0] at this
    rw [List.map_cons, requests_cons, ih (fun x hx => h x (List.mem_cons_of_mem _ hx)), hc]
    unfold kept
    rw [List.filter_cons]
    cases dropped p e.x <;> rfl

/-! ## Any use of a reader, then a reset -/

/-- what the events leave of the flag "at the first column" -/
def firstCol : Bool → List Ev → Bool
  | b, [] => b
  | _, .field _ :: es => firstCol false es
  | _, .row _ :: es => firstCol true es

theorem firstCol_append (es es' : List Ev) (b : Bool) : firstCol b (es ++ es') = firstCol (firstCol b es) es' := by
  induction es generalizing b with
  | nil => rfl
  | cons e es ih =>
    cases e with
    | field s => exact ih false
    | row c => exact ih true

theorem submitField_col {p p' : Parser} {es : List Ev} (h : submitField p = .ok (es, p')) (b : Bool) : (∃ s, es = [.field s]) ∧ p'.st = .fieldNotBegun := by
  unfold submitField at h
  rw [Res.bind_eq_ok] at h
  obtain ⟨q, _, h⟩ := h
  split at h
  · simp only [Except.ok.injEq, Prod.mk.injEq] at h
    obtain ⟨rfl, rfl⟩ := h
    exact ⟨⟨_, rfl⟩, rfl⟩
  · cases h

theorem submitBoth_col {p p' : Parser} {es : List Ev} {c : Int} (h : submitBoth p c = .ok (es, p')) : (∃ s, es = [.field s, .row c]) ∧ p'.st = .rowNotBegun := by
  unfold submitBoth at h
  rw [Res.bind_eq_ok] at h
  obtain ⟨⟨es1, p1⟩, h1, h⟩ := h
  obtain ⟨⟨s, rfl⟩, _⟩ := submitField_col h1 true
  simp only [Except.ok.injEq, Prod.mk.injEq] at h
  obtain ⟨rfl, rfl⟩ := h
  exact ⟨⟨s, rfl⟩, rfl⟩

theorem submitChar_col {p p' : Parser} {es : List Ev} {c : Nat} (h : submitChar p c = .ok (es, p')) : es = [] ∧ p'.st = p.st := by
  unfold submitChar at h
  split at h
  · simp only [Except.ok.injEq, Prod.mk.injEq] at h
    obtain ⟨rfl, rfl⟩ := h
    exact ⟨rfl, rfl⟩
  · cases h

/-- the field index is 1 whenever the parser is before a row -/
def ColOk (b : Bool) (es : List Ev) (p : Parser) : Prop := p.st = .rowNotBegun → firstCol b es = true

theorem col_field {p p' : Parser} {es : List Ev} (h : submitField p = .ok (es, p')) (b : Bool) : ColOk b es p' := by
  intro hst
  rw [(submitField_col h b).2] at hst
  cases hst

theorem col_both {p p' : Parser} {es : List Ev} {c : Int} (h : submitBoth p c = .ok (es, p')) (b : Bool) : ColOk b es p' := by
  obtain ⟨⟨s, rfl⟩, _⟩ := submitBoth_col h
  intro _
  rfl

theorem col_char {p p' : Parser} {es : List Ev} {c : Nat} (h : submitChar p c = .ok (es, p')) (hp : p.st ≠ .rowNotBegun) (b : Bool) : ColOk b es p' := by
  intro hst
  rw [(submitChar_col h).2] at hst
  exact absurd hst hp

theorem step_col {p p' : Parser} {c : Nat} {es : List Ev} {b : Bool} (hb : p.st = .rowNotBegun → b = true) (h : step p c = .ok (es, p')) : ColOk b es p' := by
  have same : ∀ {q : Parser}, (Except.ok ([], q) : Res (List Ev × Parser)) = .ok (es, p') → (q.st = .rowNotBegun → b = true) → ColOk b es p' := by
    intro q h hq
    simp only [Except.ok.injEq, Prod.mk.injEq] at h
    obtain ⟨rfl, rfl⟩ := h
    exact hq
  have drop : ∀ {q : Parser} {k : Nat} {f : Parser → Res (List Ev × Parser)}, (dropLast q k >>= f) = .ok (es, p') → (∀ r, f r = .ok (es, p') → ColOk b es p') → ColOk b es p' := by
    intro q k f h hf
    rw [Res.bind_eq_ok] at h
    obtain ⟨r, _, h⟩ := h
    exact hf r h
  unfold step at h
  split at h
  · rename_i hst
    split at h
    · exact same h hb
    split at h
    · split at h
      · exact col_both h b
      · exact same h hb
    split at h
    · exact col_field h b
    split at h
    · exact same h (fun e => by cases e)
    · exact col_char h (by simp) b
  · rename_i hst
    split at h
    · exact same h hb
    split at h
    · exact col_both h b
    split at h
    · exact col_field h b
    split at h
    · exact same h (fun e => by cases e)
    · exact col_char h (by simp) b
  · rename_i hst
    have hst' : p.st ≠ .rowNotBegun := by rw [hst]; decide
    split at h
    · split at h
      · exact col_char h (by simp) b
      · exact col_char h (by simpa using hst') b
    split at h
    · split at h
      · exact col_char h hst' b
      · exact col_field h b
    split at h
    · split at h
      · exact col_char h hst' b
      · exact col_both h b
    split at h
    · exact col_char h (by simpa using hst') b
    · exact col_char h (by simpa using hst') b
  · rename_i hst
    have hst' : p.st ≠ .rowNotBegun := by rw [hst]; decide
    split at h
    · exact drop h (fun r hr => col_field hr b)
    split at h
    · exact drop h (fun r hr => col_both hr b)
    split at h
    · exact col_char h (by simpa using hst') b
    split at h
    · split at h
      · exact col_char h (by simpa using hst') b
      · exact same h (fun e => by cases e)
    · exact col_char h (by simp) b

theorem grow_st (p : Parser) : (grow p).st = p.st := by
  unfold grow
  split <;> rfl

theorem loop_col {s : List Nat} : ∀ {p p' : Parser} {es : List Ev} {b : Bool}, (p.st = .rowNotBegun → b = true) → loop p s = .ok (es, p') → ColOk b es p' := by
  induction s with
  | nil =>
    intro p p' es b hb h
    unfold loop at h
    simp only [Except.ok.injEq, Prod.mk.injEq] at h
    obtain ⟨rfl, rfl⟩ := h
    exact hb
  | cons c s ih =>
    intro p p' es b hb h
    unfold loop at h
    rw [Res.bind_eq_ok] at h
    obtain ⟨⟨e1, p1⟩, h1, h⟩ := h
    rw [Res.bind_eq_ok] at h
    obtain ⟨⟨e2, p2⟩, h2, h⟩ := h
    simp only [Except.ok.injEq, Prod.mk.injEq] at h
    obtain ⟨rfl, rfl⟩ := h
    have := ih (b := firstCol b e1) (step_col (by rw [grow_st]; exact hb) h1) h2
    intro hst
    rw [firstCol_append]
    exact this hst

theorem parse_fini_col {p : Parser} {s : List Nat} {r t : List Ev × Parser} (h1 : parse p s = .ok r) (h2 : fini r.2 = .ok t) :
    firstCol true (r.1 ++ t.1) = true ∧ t.2.st = .rowNotBegun := by
  obtain ⟨es, q⟩ := r
  obtain ⟨es', q'⟩ := t
  have hc : ColOk true es q := by
    unfold parse at h1
    refine loop_col (p := if p.size = 0 ∧ s ≠ [] then { p with size := 128 } else p) (fun _ => rfl) h1
  simp only at h2 ⊢
  rw [firstCol_append]
  have both : ∀ {x : Parser} {c : Int}, (submitBoth x c >>= fun r => .ok (r.1, clear r.2)) = (.ok (es', q') : Res (List Ev × Parser)) →
      firstCol (firstCol true es) es' = true ∧ q'.st = .rowNotBegun := by
    intro x c h
    rw [Res.bind_eq_ok] at h
    obtain ⟨⟨e1, p1⟩, h1, h⟩ := h
    obtain ⟨⟨s, rfl⟩, _⟩ := submitBoth_col h1
    simp only [Except.ok.injEq, Prod.mk.injEq] at h
    obtain ⟨rfl, rfl⟩ := h
    exact ⟨rfl, rfl⟩
  unfold fini at h2
  split at h2
  · rename_i hst
    simp only [Except.ok.injEq, Prod.mk.injEq] at h2
    obtain ⟨rfl, rfl⟩ := h2
    exact ⟨hc hst, rfl⟩
  · exact both h2
  · exact both h2
  · rw [Res.bind_eq_ok] at h2
    obtain ⟨x, _, h2⟩ := h2
    exact both h2

theorem callbacks_keep {hash : List Nat → Nat} {es : List Ev} : ∀ {rd rd' : TReader} {c c' : CsvParams} {q q' : Request}, c.cntField = 0 → 1 ≤ c.idx →
    callbacks hash es rd c q = .ok (rd', c', q') → rd' = rd ∧ ∃ k, c' = { c with idx := k } ∧ (firstCol (decide (c.idx = 1)) es = true → k = 1) := by
  induction es with
  | nil =>
    intro rd rd' c c' q q' h0 h1 h
    unfold callbacks at h
    simp only [Except.ok.injEq, Prod.mk.injEq] at h
    obtain ⟨rfl, rfl, rfl⟩ := h
    exact ⟨rfl, c.idx, rfl, fun h => by simpa [firstCol] using h⟩
  | cons e es ih =>
    intro rd rd' c c' q q' h0 h1 h
    cases e with
    | field s =>
      rw [callbacks_cons, Res.bind_eq_ok] at h
      obtain ⟨⟨q1, n1⟩, hcb, h⟩ := h
      have hn : n1 = rd.nLeft := by
        unfold cb1 at hcb
        split at hcb
        · simp only [Except.ok.injEq, Prod.mk.injEq] at hcb; exact hcb.2.symm
        split at hcb
        · rw [Res.bind_eq_ok] at hcb
          obtain ⟨v, _, hcb⟩ := hcb
          simp only [Except.ok.injEq, Prod.mk.injEq] at hcb; exact hcb.2.symm
        split at hcb
        · simp only [Except.ok.injEq, Prod.mk.injEq] at hcb; exact hcb.2.symm
        split at hcb
        · omega
        · simp only [Except.ok.injEq, Prod.mk.injEq] at hcb; exact hcb.2.symm
      obtain ⟨g1, k, g2, g3⟩ := ih (c := { c with idx := c.idx + 1 }) h0 (by show 1 ≤ c.idx + 1; omega) h
      refine ⟨by rw [g1, hn], k, g2, ?_⟩
      have hd : decide (c.idx + 1 = 1) = false := by rw [decide_eq_false_iff_not]; omega
      intro hf
      refine g3 ?_
      show firstCol (decide (c.idx + 1 = 1)) es = true
      rw [hd]
      exact hf
    | row x =>
      unfold callbacks at h
      obtain ⟨g1, k, g2, g3⟩ := ih (c := { c with idx := 1 }) h0 (Int.le_refl 1) h
      exact ⟨g1, k, g2, fun hf => g3 hf⟩

/-- what never changes -/
def Steady (rd0 : TReader) (c0 : CsvParams) (rd : TReader) : Prop :=
  ∃ ps pos n t, rd = { rd0 with csv := some { c0 with parser := ps }, pos := pos, nRead := n, lastTime := t } ∧ ps.st = .rowNotBegun

theorem Steady.pos {rd0 rd : TReader} {c0 : CsvParams} (h : Steady rd0 c0 rd) (k : Nat) : Steady rd0 c0 { rd with pos := k } := by
  obtain ⟨ps, pos, n, t, rfl, hp⟩ := h
  exact ⟨ps, k, n, t, rfl, hp⟩

theorem csvRow_steady {hash : List Nat → Nat} {rd0 rd rd' : TReader} {c0 c : CsvParams} {q q' : Request} (hi : c0.idx = 1) (h0 : c0.cntField = 0) (h : Steady rd0 c0 rd) (hc : rd.csv = some c)
    (hr : csvRow hash rd c q = .ok (some (rd', q'))) : Steady rd0 c0 rd' := by
  obtain ⟨ps, pos, n, t, rfl, hp⟩ := h
  have hc : c = { c0 with parser := ps } := by simp only [Option.some.injEq] at hc; exact hc.symm
  subst hc
  unfold csvRow at hr
  split at hr
  · cases hr
  · rename_i l hl
    rw [Res.bind_eq_ok] at hr
    obtain ⟨r, h1, hr⟩ := hr
    rw [Res.bind_eq_ok] at hr
    obtain ⟨u, h2, hr⟩ := hr
    rw [Res.bind_eq_ok] at hr
    obtain ⟨⟨rd1, c1, q1⟩, h3, hr⟩ := hr
    simp only [Except.ok.injEq, Option.some.injEq, Prod.mk.injEq] at hr
    obtain ⟨rfl, rfl⟩ := hr
    obtain ⟨hf, hst⟩ := parse_fini_col h1 h2
    obtain ⟨g1, k, g2, g3⟩ := callbacks_keep (c := { c0 with parser := u.2 }) h0 (by show 1 ≤ c0.idx; rw [hi]) h3
    have hk : k = 1 := g3 (by
      show firstCol (decide (c0.idx = 1)) (r.1 ++ u.1) = true
      rw [hi]
      exact hf)
    subst g1 g2 hk
    refine ⟨u.2, pos + l.length, n, t, ?_, hst⟩
    rw [← hi]

theorem csvRead_steady {hash : List Nat → Nat} {rd0 : TReader} {c0 : CsvParams} (hi : c0.idx = 1) (h0 : c0.cntField = 0) (hfw : rd0.fwd = true) (fuel : Nat) :
    ∀ {rd rd' : TReader} {q q' : Request} {s : Int}, Steady rd0 c0 rd → csvRead hash fuel rd q = .ok (s, rd', q') → Steady rd0 c0 rd' := by
  induction fuel with
  | zero => intro rd rd' q q' s _ h; cases h
  | succ fuel ih =>
    intro rd rd' q q' s hs h
    unfold csvRead at h
    split at h
    · cases h
    · rename_i c hc
      rw [Res.bind_eq_ok] at h
      obtain ⟨r, h1, h⟩ := h
      cases r with
      | none =>
        simp only [Except.ok.injEq, Prod.mk.injEq] at h
        rw [← h.2.1]
        exact hs
      | some x =>
        obtain ⟨rd1, q1⟩ := x
        have hs1 := csvRow_steady hi h0 hs hc h1
        simp only at h
        split at h
        · have hfw1 : rd1.fwd = true := by
            obtain ⟨ps, pos, n, t, rfl, hp⟩ := hs1
            exact hfw
          rw [if_pos hfw1] at h
          exact ih hs1 h
        · simp only [Except.ok.injEq, Prod.mk.injEq] at h
          rw [← h.2.1]
          split
          · obtain ⟨ps, pos, n, t, rfl, hp⟩ := hs1
            exact ⟨ps, pos, n, _, rfl, hp⟩
          · exact hs1

theorem readWith_steady {rd0 : TReader} {c0 : CsvParams} (hl : rd0.nLeft = 0) {body : TReader → Request → Res (Int × TReader × Request)}
    (hb : ∀ {rd rd' : TReader} {q q' : Request} {s : Int}, Steady rd0 c0 rd → body rd q = .ok (s, rd', q') → Steady rd0 c0 rd') {rd rd' : TReader} {q q' : Request} {s : Int} (hs : Steady rd0 c0 rd)
    (h : readWith body rd q = .ok (s, rd', q')) : Steady rd0 c0 rd' := by
  unfold readWith at h
  split at h
  · simp only [Except.ok.injEq, Prod.mk.injEq] at h
    rw [← h.2.1]; exact hs
  split at h
  · simp only [Except.ok.injEq, Prod.mk.injEq] at h
    rw [← h.2.1]; exact hs
  · have hl1 : ¬ rd.nLeft > 0 := by
      obtain ⟨ps, pos, n, t, rfl, hp⟩ := hs
      show ¬ rd0.nLeft > 0
      rw [hl]; decide
    rw [if_neg hl1, Res.bind_eq_ok] at h
    obtain ⟨⟨s1, rd1, q1⟩, h1, h⟩ := h
    simp only [Except.ok.injEq, Prod.mk.injEq] at h
    rw [← h.2.1]
    refine hb ?_ h1
    obtain ⟨ps, pos, n, t, rfl, hp⟩ := hs
    exact ⟨ps, pos, _, t, rfl, hp⟩

theorem readOne_steady {hash : List Nat → Nat} {rd0 : TReader} {c0 : CsvParams} (hi : c0.idx = 1) (h0 : c0.cntField = 0) (hfw : rd0.fwd = true) (hl : rd0.nLeft = 0)
    {rd rd' : TReader} {q q' : Request} {s : Int} (hs : Steady rd0 c0 rd) (h : readOne hash rd q = .ok (s, rd', q')) : Steady rd0 c0 rd' := by
  unfold readOne at h
  have hc : rd.csv.isSome = true := by
    obtain ⟨ps, pos, n, t, rfl, hp⟩ := hs
    rfl
  rw [if_pos hc] at h
  exact readWith_steady hl (fun hs h => csvRead_steady hi h0 hfw _ hs h) hs h

theorem goBackOne_steady {rd0 rd rd' : TReader} {c0 : CsvParams} {s : Int} (hs : Steady rd0 c0 rd) (h : goBackOne rd = .ok (s, rd')) : Steady rd0 c0 rd' := by
  unfold goBackOne at h
  split at h
  · simp only [Except.ok.injEq, Prod.mk.injEq] at h
    rw [← h.2]; exact hs
  · rw [Res.bind_eq_ok] at h
    obtain ⟨r, _, h⟩ := h
    simp only [Except.ok.injEq, Prod.mk.injEq] at h
    rw [← h.2]
    exact hs.pos _

theorem skipN_steady {rd0 : TReader} {c0 : CsvParams} (n : Nat) : ∀ {rd : TReader}, Steady rd0 c0 rd → Steady rd0 c0 (skipN rd n).2 := by
  induction n with
  | zero => intro rd hs; exact hs
  | succ n ih =>
    intro rd hs
    unfold skipN
    split
    · exact hs
    · exact ih (hs.pos _)

theorem reset_steady {rd0 rd : TReader} {c0 : CsvParams} (hs : Steady rd0 c0 rd) : Steady rd0 c0 (reset rd) := by
  obtain ⟨ps, pos, n, t, rfl, hp⟩ := hs
  unfold reset
  refine ⟨_, _, _, _, rfl, ?_⟩
  split <;> rfl

theorem used_steady {hash : List Nat → Nat} {rd0 rd : TReader} {c0 : CsvParams} (hc : rd0.csv = some c0) (hst : c0.parser.st = .rowNotBegun) (hi : c0.idx = 1) (h0 : c0.cntField = 0) (hfw : rd0.fwd = true)
    (hl : rd0.nLeft = 0) (h : Used hash rd0 rd) : Steady rd0 c0 rd := by
  induction h with
  | refl => exact ⟨c0.parser, rd0.pos, rd0.nRead, rd0.lastTime, by rw [← hc], hst⟩
  | read _ h ih => exact readOne_steady hi h0 hfw hl ih h
  | above _ h ih =>
    rename_i rd rd' q q' s _
    unfold readAbove at h
    have hl1 : ¬ rd.nLeft > 0 := by
      obtain ⟨ps, pos, n, t, rfl, hp⟩ := ih
      show ¬ rd0.nLeft > 0
      rw [hl]; decide
    rw [if_neg hl1, Res.bind_eq_ok] at h
    obtain ⟨⟨s1, rd1⟩, h1, h⟩ := h
    have hs1 : Steady rd0 c0 rd1 := by
      unfold goBackTwo at h1
      rw [Res.bind_eq_ok] at h1
      obtain ⟨⟨s2, rd2⟩, h2, h1⟩ := h1
      have hs2 := goBackOne_steady ih h2
      simp only at h1
      split at h1
      · exact goBackOne_steady hs2 h1
      · simp only [Except.ok.injEq, Prod.mk.injEq] at h1
        rw [← h1.2]; exact hs2
    simp only at h
    split at h
    · exact readOne_steady hi h0 hfw hl hs1 h
    · simp only [Except.ok.injEq, Prod.mk.injEq] at h
      rw [← h.2.1]; exact hs1
  | skip n _ ih => exact skipN_steady n ih
  | back _ h ih => exact goBackOne_steady ih h
  | seek off _ h ih =>
    unfold setPos at h
    split at h
    · split at h
      · cases h
      · rw [Res.bind_eq_ok] at h
        obtain ⟨p, _, h⟩ := h
        simp only [Except.ok.injEq] at h
        rw [← h]
        exact ih.pos _
    · split at h
      · simp only [Except.ok.injEq] at h
        rw [← h]
        exact ih.pos _
      · rw [Res.bind_eq_ok] at h
        obtain ⟨⟨s, r⟩, h1, h⟩ := h
        simp only [Except.ok.injEq] at h
        rw [← h]
        exact goBackOne_steady (ih.pos _) h1
  | reset _ ih => exact reset_steady ih

end Verif.Text
