import Verif.Spec.Csv
/-!
# The CSV parser: memory safety and parsing of written rows
-/

namespace Verif.Csv
open Verif Verif.Spec.Csv

/-- the same parser with another buffer capacity -/
abbrev Parser.sz (p : Parser) (n : Nat) : Parser := { p with size := n }

/-- one character, whatever the capacity, as long as one more byte and the terminator fit -/
def Steps (p : Parser) (c : Nat) (es : List Ev) (p' : Parser) : Prop :=
  ∀ n, p.buf.length + 1 < n → step (p.sz n) c = .ok (es, p'.sz n) ∧ p'.buf.length ≤ p.buf.length + 1

/-- several characters, whatever the capacity, as long as the terminator fits -/
def Runs (p : Parser) (s : List Nat) (es : List Ev) (p' : Parser) : Prop :=
  ∀ n, p.buf.length < n → ∃ m, p'.buf.length < m ∧ loop (p.sz n) s = .ok (es, p'.sz m)

theorem Runs.nil (p : Parser) : Runs p [] [] p := fun n hn => ⟨n, hn, rfl⟩

theorem Runs.cons {p q r : Parser} {c : Nat} {s : List Nat} {e e' : List Ev} (h : Steps p c e q) (h' : Runs q s e' r) : Runs p (c :: s) (e ++ e') r := by
  intro n hn
  have hg : ∃ k, grow (p.sz n) = p.sz k ∧ p.buf.length + 1 < k := by
    unfold grow
    split
    · rename_i h1
      exact ⟨n + 128, rfl, by omega⟩
    · rename_i h1
      refine ⟨n, rfl, ?_⟩
      have h1 : ¬ p.buf.length = n - 1 := h1
      omega
  obtain ⟨k, hk, hk2⟩ := hg
  obtain ⟨h1, h2⟩ := h k hk2
  obtain ⟨m, hm, hl⟩ := h' k (by omega)
  refine ⟨m, hm, ?_⟩
  simp only [loop, hk, h1, Res.bind_ok, hl]

theorem loop_append (p : Parser) (s t : List Nat) :
    loop p (s ++ t) = loop p s >>= fun r => loop r.2 t >>= fun u => .ok (r.1 ++ u.1, u.2) := by
  induction s generalizing p with
  | nil =>
    simp only [List.nil_append, loop, Res.bind_ok]
    cases loop p t with
    | error f => rfl
    | ok u => rfl
  | cons c s ih =>
    simp only [List.cons_append, loop]
    cases step (grow p) c with
    | error f => rfl
    | ok r =>
      simp only [Res.bind_ok, ih]
      cases loop r.2 s with
      | error f => rfl
      | ok r' =>
        simp only [Res.bind_ok]
        cases loop r'.2 t with
        | error f => rfl
        | ok u => simp only [Res.bind_ok, List.append_assoc]

theorem Runs.append {p q r : Parser} {s t : List Nat} {e e' : List Ev} (h : Runs p s e q) (h' : Runs q t e' r) : Runs p (s ++ t) (e ++ e') r := by
  intro n hn
  obtain ⟨m, hm, hl⟩ := h n hn
  obtain ⟨k, hk, hl'⟩ := h' m hm
  refine ⟨k, hk, ?_⟩
  rw [loop_append, hl, Res.bind_ok, hl', Res.bind_ok]

/-! ## Memory safety -/

/-- what holds of a parser between two characters -/
def Inv (p : Parser) : Prop :=
  match p.st with
  | .rowNotBegun | .fieldNotBegun => p.buf = [] ∧ p.quoted = false ∧ p.spaces = 0
  | .fieldBegun => if p.quoted then p.spaces = 0 else p.spaces ≤ p.buf.length
  | .mightHaveEnded => p.quoted = true ∧ p.spaces + 1 ≤ p.buf.length

/-- the field a parser has collected -/
def fld (p : Parser) : List Nat := if p.quoted then p.buf else p.buf.take (p.buf.length - p.spaces)

/-- after a field -/
def ended (p : Parser) : Parser := { p with st := .fieldNotBegun, buf := [], quoted := false, spaces := 0 }

/-- after a row -/
def rowEnded (p : Parser) : Parser := { p with st := .rowNotBegun, buf := [], quoted := false, spaces := 0 }

/-- without what follows the text of a quoted field -/
def cut (p : Parser) : Parser := { p with buf := p.buf.take (p.buf.length - (p.spaces + 1)) }

theorem submitField_ok {p : Parser} (h : p.quoted = false → p.spaces ≤ p.buf.length) (n : Nat) (hn : p.buf.length < n) :
    submitField (p.sz n) = .ok ([.field (fld p)], (ended p).sz n) := by
  unfold submitField fld ended
  by_cases hq : p.quoted = true
  · simp only [hq, if_true, Res.bind_ok, if_pos hn]
  · simp only [Bool.not_eq_true] at hq
    simp only [hq, Bool.false_eq_true, if_false, dropLast, if_pos (h hq), Res.bind_ok, List.length_take]
    rw [if_pos (by omega)]

theorem submitBoth_ok {p : Parser} (h : p.quoted = false → p.spaces ≤ p.buf.length) (n : Nat) (hn : p.buf.length < n) (c : Int) :
    submitBoth (p.sz n) c = .ok ([.field (fld p), .row c], (rowEnded p).sz n) := by
  simp only [submitBoth, submitField_ok h n hn, Res.bind_ok, submitRow, List.cons_append, List.nil_append]
  rfl

theorem submitChar_ok (p : Parser) (n : Nat) (hn : p.buf.length < n) (c : Nat) : submitChar (p.sz n) c = .ok ([], { p with buf := p.buf ++ [c], size := n }) := by
  simp only [submitChar, if_pos hn]

theorem dropLast_ok (p : Parser) (n k : Nat) (h : k ≤ p.buf.length) : dropLast (p.sz n) k = .ok ({ p with buf := p.buf.take (p.buf.length - k), size := n }) := by
  simp only [dropLast, if_pos h]

/-- what one character does: never a fault -/
theorem step_safe {p : Parser} (h : Inv p) (c : Nat) : ∃ es p', Steps p c es p' ∧ Inv p' := by
  have hlen : ∀ (q : Parser) (n : Nat), (q.buf.take n).length ≤ q.buf.length + 1 := by intro q n; simp only [List.length_take]; omega
  cases hst : p.st with
  | rowNotBegun =>
    unfold Inv at h
    simp only [hst] at h
    obtain ⟨h1, h2, h3⟩ := h
    by_cases c1 : isBlank c ∧ c ≠ p.delim
    · exact ⟨[], p, fun n hn => ⟨by simp only [step, hst, if_pos c1], by omega⟩, by unfold Inv; simp only [hst]; exact ⟨h1, h2, h3⟩⟩
    by_cases c2 : isTerm c
    · refine ⟨[], p, fun n hn => ⟨?_, by omega⟩, by unfold Inv; simp only [hst]; exact ⟨h1, h2, h3⟩⟩
      simp only [step, hst, if_neg c1, if_pos c2]
      rfl
    by_cases c3 : c = p.delim
    · refine ⟨[.field (fld p)], ended p, fun n hn => ⟨?_, ?_⟩, ?_⟩
      · simp only [step, hst, if_neg c1, if_neg c2, if_pos c3]
        exact submitField_ok (by intro; omega) n (by omega)
      · exact Nat.zero_le _
      · unfold Inv; exact ⟨rfl, rfl, rfl⟩
    by_cases c4 : c = p.quote
    · refine ⟨[], { p with st := .fieldBegun, quoted := true }, fun n hn => ⟨?_, by simp⟩, ?_⟩
      · simp only [step, hst, if_neg c1, if_neg c2, if_neg c3, if_pos c4]
      · unfold Inv; simp only [if_true]; exact h3
    · refine ⟨[], { p with st := .fieldBegun, quoted := false, buf := p.buf ++ [c] }, fun n hn => ⟨?_, by simp⟩, ?_⟩
      · simp only [step, hst, if_neg c1, if_neg c2, if_neg c3, if_neg c4]
        exact submitChar_ok { p with st := .fieldBegun, quoted := false } n (by show p.buf.length < n; omega) c
      · unfold Inv; simp [h3]
  | fieldNotBegun =>
    unfold Inv at h
    simp only [hst] at h
    obtain ⟨h1, h2, h3⟩ := h
    by_cases c1 : isBlank c ∧ c ≠ p.delim
    · exact ⟨[], p, fun n hn => ⟨by simp only [step, hst, if_pos c1], by omega⟩, by unfold Inv; simp only [hst]; exact ⟨h1, h2, h3⟩⟩
    by_cases c2 : isTerm c
    · refine ⟨[.field (fld p), .row c], rowEnded p, fun n hn => ⟨?_, ?_⟩, ?_⟩
      · simp only [step, hst, if_neg c1, if_pos c2, if_true]
        exact submitBoth_ok (by intro; omega) n (by omega) c
      · exact Nat.zero_le _
      · unfold Inv; exact ⟨rfl, rfl, rfl⟩
    by_cases c3 : c = p.delim
    · refine ⟨[.field (fld p)], ended p, fun n hn => ⟨?_, ?_⟩, ?_⟩
      · simp only [step, hst, if_neg c1, if_neg c2, if_pos c3]
        exact submitField_ok (by intro; omega) n (by omega)
      · exact Nat.zero_le _
      · unfold Inv; exact ⟨rfl, rfl, rfl⟩
    by_cases c4 : c = p.quote
    · refine ⟨[], { p with st := .fieldBegun, quoted := true }, fun n hn => ⟨?_, by simp⟩, ?_⟩
      · simp only [step, hst, if_neg c1, if_neg c2, if_neg c3, if_pos c4]
      · unfold Inv; simp only [if_true]; exact h3
    · refine ⟨[], { p with st := .fieldBegun, quoted := false, buf := p.buf ++ [c] }, fun n hn => ⟨?_, by simp⟩, ?_⟩
      · simp only [step, hst, if_neg c1, if_neg c2, if_neg c3, if_neg c4]
        exact submitChar_ok { p with st := .fieldBegun, quoted := false } n (by show p.buf.length < n; omega) c
      · unfold Inv; simp [h3]
  | fieldBegun =>
    unfold Inv at h
    simp only [hst] at h
    by_cases hq : p.quoted = true
    · rw [if_pos hq] at h
      by_cases c1 : c = p.quote
      · refine ⟨[], { p with st := .mightHaveEnded, buf := p.buf ++ [c] }, fun n hn => ⟨?_, by simp⟩, ?_⟩
        · simp only [step, hst, if_pos c1, if_pos hq]
          exact submitChar_ok { p with st := .mightHaveEnded } n (by show p.buf.length < n; omega) c
        · unfold Inv; simp only [List.length_append, List.length_cons, List.length_nil, h]; exact ⟨hq, by omega⟩
      by_cases c2 : c = p.delim
      · refine ⟨[], { p with buf := p.buf ++ [c] }, fun n hn => ⟨?_, by simp⟩, ?_⟩
        · simp only [step, hst, if_neg c1, if_pos c2, if_pos hq]
          have := submitChar_ok p n (by omega) c
          simp only [hst] at this
          exact this
        · unfold Inv; simp only [hst, if_pos hq]; exact h
      by_cases c3 : isTerm c
      · refine ⟨[], { p with buf := p.buf ++ [c] }, fun n hn => ⟨?_, by simp⟩, ?_⟩
        · simp only [step, hst, if_neg c1, if_neg c2, if_pos c3, if_pos hq]
          have := submitChar_ok p n (by omega) c
          simp only [hst] at this
          exact this
        · unfold Inv; simp only [hst, if_pos hq]; exact h
      · refine ⟨[], { p with buf := p.buf ++ [c], spaces := 0 }, fun n hn => ⟨?_, by simp⟩, ?_⟩
        · simp only [step, hst, if_neg c1, if_neg c2, if_neg c3, hq, Bool.not_true, Bool.false_and, Bool.false_eq_true, if_false]
          have := submitChar_ok { p with spaces := 0 } n (by show p.buf.length < n; omega) c
          simp only [hst, hq] at this
          exact this
        · unfold Inv; simp only [hst, if_pos hq]
    · rw [if_neg hq] at h
      have hq' : p.quoted = false := by simpa using hq
      by_cases c1 : c = p.quote
      · refine ⟨[], { p with buf := p.buf ++ [c], spaces := 0 }, fun n hn => ⟨?_, by simp⟩, ?_⟩
        · simp only [step, hst, if_pos c1, if_neg hq]
          have := submitChar_ok { p with spaces := 0 } n (by show p.buf.length < n; omega) c
          simp only [hst] at this
          exact this
        · unfold Inv; simp [hst, hq']
      by_cases c2 : c = p.delim
      · refine ⟨[.field (fld p)], ended p, fun n hn => ⟨?_, ?_⟩, ?_⟩
        · simp only [step, hst, if_neg c1, if_pos c2, if_neg hq]
          exact submitField_ok (p := p) (by intro; exact h) n (by show p.buf.length < n; omega)
        · exact Nat.zero_le _
        · unfold Inv; exact ⟨rfl, rfl, rfl⟩
      by_cases c3 : isTerm c
      · refine ⟨[.field (fld p), .row c], rowEnded p, fun n hn => ⟨?_, ?_⟩, ?_⟩
        · simp only [step, hst, if_neg c1, if_neg c2, if_pos c3, if_neg hq]
          exact submitBoth_ok (p := p) (by intro; exact h) n (by show p.buf.length < n; omega) c
        · exact Nat.zero_le _
        · unfold Inv; exact ⟨rfl, rfl, rfl⟩
      by_cases c4 : isBlank c
      · refine ⟨[], { p with buf := p.buf ++ [c], spaces := p.spaces + 1 }, fun n hn => ⟨?_, by simp⟩, ?_⟩
        · simp only [step, hst, if_neg c1, if_neg c2, if_neg c3, hq', c4, Bool.not_false, Bool.true_and, if_true]
          have := submitChar_ok { p with spaces := p.spaces + 1 } n (by show p.buf.length < n; omega) c
          simp only [hst, hq'] at this
          exact this
        · unfold Inv; simp [hst, hq']; omega
      · refine ⟨[], { p with buf := p.buf ++ [c], spaces := 0 }, fun n hn => ⟨?_, by simp⟩, ?_⟩
        · simp only [step, hst, if_neg c1, if_neg c2, if_neg c3, hq', c4, Bool.and_false, Bool.false_eq_true, if_false]
          have := submitChar_ok { p with spaces := 0 } n (by show p.buf.length < n; omega) c
          simp only [hst, hq'] at this
          exact this
        · unfold Inv; simp [hst, hq']
  | mightHaveEnded =>
    unfold Inv at h
    simp only [hst] at h
    obtain ⟨hq, hs⟩ := h
    by_cases c1 : c = p.delim
    · refine ⟨[.field (fld (cut p))], ended (cut p), fun n hn => ⟨?_, ?_⟩, ?_⟩
      · simp only [step, hst, if_pos c1]
        have hc : dropLast (p.sz n) (p.spaces + 1) = .ok ((cut p).sz n) := dropLast_ok p n (p.spaces + 1) hs
        rw [hc, Res.bind_ok]
        exact submitField_ok (p := cut p) (by intro h0; have h0 : p.quoted = false := h0; rw [hq] at h0; cases h0) n
          (by simp only [cut, List.length_take]; omega)
      · exact Nat.zero_le _
      · unfold Inv; exact ⟨rfl, rfl, rfl⟩
    by_cases c2 : isTerm c
    · refine ⟨[.field (fld (cut p)), .row c], rowEnded (cut p), fun n hn => ⟨?_, ?_⟩, ?_⟩
      · simp only [step, hst, if_neg c1, if_pos c2]
        have hc : dropLast (p.sz n) (p.spaces + 1) = .ok ((cut p).sz n) := dropLast_ok p n (p.spaces + 1) hs
        rw [hc, Res.bind_ok]
        exact submitBoth_ok (p := cut p) (by intro h0; have h0 : p.quoted = false := h0; rw [hq] at h0; cases h0) n
          (by simp only [cut, List.length_take]; omega) c
      · exact Nat.zero_le _
      · unfold Inv; exact ⟨rfl, rfl, rfl⟩
    by_cases c3 : isBlank c
    · refine ⟨[], { p with buf := p.buf ++ [c], spaces := p.spaces + 1 }, fun n hn => ⟨?_, by simp⟩, ?_⟩
      · simp only [step, hst, if_neg c1, if_neg c2, if_pos c3]
        have := submitChar_ok { p with spaces := p.spaces + 1 } n (by show p.buf.length < n; omega) c
        simp only [hst] at this
        exact this
      · unfold Inv; simp only [hst, List.length_append, List.length_cons, List.length_nil]; exact ⟨hq, by omega⟩
    by_cases c4 : c = p.quote
    · by_cases c5 : p.spaces > 0
      · refine ⟨[], { p with buf := p.buf ++ [c], spaces := 0 }, fun n hn => ⟨?_, by simp⟩, ?_⟩
        · simp only [step, hst, if_neg c1, if_neg c2, if_neg c3, if_pos c4, if_pos c5]
          have := submitChar_ok { p with spaces := 0 } n (by show p.buf.length < n; omega) c
          simp only [hst] at this
          exact this
        · unfold Inv; simp only [hst, List.length_append, List.length_cons, List.length_nil]; exact ⟨hq, by omega⟩
      · refine ⟨[], { p with st := .fieldBegun }, fun n hn => ⟨?_, by simp⟩, ?_⟩
        · simp only [step, hst, if_neg c1, if_neg c2, if_neg c3, if_pos c4, if_neg c5]
        · unfold Inv; simp only [if_pos hq]; omega
    · refine ⟨[], { p with st := .fieldBegun, buf := p.buf ++ [c], spaces := 0 }, fun n hn => ⟨?_, by simp⟩, ?_⟩
      · simp only [step, hst, if_neg c1, if_neg c2, if_neg c3, if_neg c4]
        exact submitChar_ok { p with st := .fieldBegun, spaces := 0 } n (by show p.buf.length < n; omega) c
      · unfold Inv; simp [hq]

theorem runs_safe {p : Parser} (h : Inv p) (s : List Nat) : ∃ es p', Runs p s es p' ∧ Inv p' := by
  induction s generalizing p with
  | nil => exact ⟨[], p, .nil p, h⟩
  | cons c s ih =>
    obtain ⟨e, q, hs, hq⟩ := step_safe h c
    obtain ⟨e', r, hr, hi⟩ := ih hq
    exact ⟨e ++ e', r, .cons hs hr, hi⟩

/-- a parser between two calls -/
def Ready (p : Parser) : Prop := Inv p ∧ (p.size = 0 → p.st = .rowNotBegun) ∧ (p.size ≠ 0 → p.buf.length < p.size)

theorem Runs.parse {p p' : Parser} {s : List Nat} {es : List Ev} (h : Runs p s es p') (hp : Ready p) (hi : Inv p') (hs : s ≠ []) :
    ∃ m, p'.buf.length < m ∧ Csv.parse p s = .ok (es, p'.sz m) ∧ Ready (p'.sz m) := by
  have : ∃ m, p'.buf.length < m ∧ Csv.parse p s = .ok (es, p'.sz m) := by
    unfold Csv.parse
    by_cases h0 : p.size = 0
    · rw [if_pos ⟨h0, hs⟩]
      have hb : p.buf = [] := by
        have h1 := hp.1
        unfold Inv at h1
        rw [hp.2.1 h0] at h1
        exact h1.1
      exact h 128 (by rw [hb]; decide)
    · rw [if_neg (fun h => h0 h.1)]
      exact h p.size (hp.2.2 h0)
  obtain ⟨m, hm, hl⟩ := this
  exact ⟨m, hm, hl, hi, fun h0 => absurd h0 (by simp only; omega), fun _ => hm⟩

theorem parse_safe {p : Parser} (hp : Ready p) (s : List Nat) : ∃ es p', Csv.parse p s = .ok (es, p') ∧ Ready p' := by
  by_cases hs : s = []
  · subst hs
    refine ⟨[], p, ?_, hp⟩
    unfold Csv.parse
    rw [if_neg (by simp)]
    rfl
  · obtain ⟨es, p', hr, hi⟩ := runs_safe hp.1 s
    obtain ⟨m, _, h1, h2⟩ := hr.parse hp hi hs
    exact ⟨es, p'.sz m, h1, h2⟩

theorem fini_row {p : Parser} (h : p.st = .rowNotBegun) : fini p = .ok ([], clear p) := by simp only [fini, h]

/-- a last field that was not ended by a line end -/
theorem fini_open {p : Parser} (hi : Inv p) (hlt : p.buf.length < p.size) (h : p.st ≠ .rowNotBegun) :
    fini p = .ok ([.field (fld (if p.st = .mightHaveEnded then cut p else p)), .row (-1)], clear p) := by
  cases hst : p.st with
  | rowNotBegun => exact absurd hst h
  | fieldNotBegun =>
    unfold Inv at hi
    simp only [hst] at hi
    have hc := submitBoth_ok (p := p) (by intro; omega) p.size hlt (-1)
    simp only [fini, hst]
    have e : p.sz p.size = p := rfl
    rw [e] at hc
    rw [hc, Res.bind_ok]
    rfl
  | fieldBegun =>
    unfold Inv at hi
    simp only [hst] at hi
    have hc := submitBoth_ok (p := p) (by intro h; rw [h] at hi; simpa using hi) p.size hlt (-1)
    simp only [fini, hst]
    have e : p.sz p.size = p := rfl
    rw [e] at hc
    rw [hc, Res.bind_ok]
    rfl
  | mightHaveEnded =>
    unfold Inv at hi
    simp only [hst] at hi
    have hd : dropLast p (p.spaces + 1) = .ok (cut p) := dropLast_ok p p.size (p.spaces + 1) hi.2
    have hc := submitBoth_ok (p := cut p) (by intro h0; have h0 : p.quoted = false := h0; rw [hi.1] at h0; cases h0) p.size
      (by simp only [cut, List.length_take]; omega) (-1)
    simp only [fini, hst]
    have e : (cut p).sz p.size = cut p := rfl
    rw [e] at hc
    rw [hd, Res.bind_ok, hc, Res.bind_ok]
    rfl

theorem fini_safe {p : Parser} (hp : Ready p) : ∃ es, fini p = .ok (es, clear p) ∧ Ready (clear p) := by
  have hr : Ready (clear p) := by
    refine ⟨⟨rfl, rfl, rfl⟩, fun _ => rfl, fun h => ?_⟩
    have : p.size ≠ 0 := h
    exact Nat.pos_of_ne_zero this
  by_cases hst : p.st = .rowNotBegun
  · exact ⟨[], fini_row hst, hr⟩
  · exact ⟨_, fini_open hp.1 (hp.2.2 (fun h' => hst (hp.2.1 h'))) hst, hr⟩

/-! ## Rows -/

theorem blank_iff (c : Nat) : isBlank c = true ↔ c = 32 ∨ c = 9 := by simp [isBlank]
theorem term_iff (c : Nat) : isTerm c = true ↔ c = 13 ∨ c = 10 := by simp [isTerm]

/-- between fields or before a row -/
structure Between (p : Parser) : Prop where
  st : p.st = .rowNotBegun ∨ p.st = .fieldNotBegun
  buf : p.buf = []
  quoted : p.quoted = false
  spaces : p.spaces = 0

theorem Between.inv {p : Parser} (h : Between p) : Inv p := by
  unfold Inv
  rcases h.st with e | e <;> simp only [e] <;> exact ⟨h.buf, h.quoted, h.spaces⟩

theorem runs_blanks {p : Parser} (h : Between p) (b : List Nat) (hb : Blanks p.delim b) : Runs p b [] p := by
  induction b with
  | nil => exact .nil p
  | cons c b ih =>
    have hc := hb c (by simp)
    have hs : Steps p c [] p := by
      intro n hn
      refine ⟨?_, by omega⟩
      rcases h.st with e | e <;> simp only [step, e] <;> rw [if_pos ⟨(blank_iff c).2 hc.1, hc.2⟩]
    exact .cons hs (ih (fun x hx => hb x (List.mem_cons_of_mem _ hx)))

/-- in an unquoted field -/
structure InPlain (p : Parser) : Prop where
  st : p.st = .fieldBegun
  quoted : p.quoted = false

/-- one more character of an unquoted field -/
def addPlain (p : Parser) (c : Nat) : Parser :=
  if isBlank c then { p with buf := p.buf ++ [c], spaces := p.spaces + 1 } else { p with buf := p.buf ++ [c], spaces := 0 }

theorem steps_plain {p : Parser} (h : InPlain p) (c : Nat) (h1 : c ≠ p.delim) (h2 : c ≠ p.quote) (h3 : c ≠ 13) (h4 : c ≠ 10) :
    Steps p c [] (addPlain p c) := by
  intro n hn
  have ht : ¬ isTerm c = true := by rw [term_iff]; rintro (e | e) <;> contradiction
  unfold addPlain
  by_cases hb : isBlank c = true
  · refine ⟨?_, by simp [hb]⟩
    have := submitChar_ok { p with spaces := p.spaces + 1 } n (by show p.buf.length < n; omega) c
    simp only [h.st, h.quoted] at this
    simp only [step, h.st, if_neg h2, if_neg h1, if_neg ht, h.quoted, hb, Bool.not_false, Bool.true_and, if_true]
    exact this
  · refine ⟨?_, by simp [hb]⟩
    have := submitChar_ok { p with spaces := 0 } n (by show p.buf.length < n; omega) c
    simp only [h.st, h.quoted] at this
    simp only [step, h.st, if_neg h2, if_neg h1, if_neg ht, h.quoted, hb, Bool.not_false, Bool.true_and, Bool.false_eq_true, if_false]
    exact this

theorem addPlain_inPlain {p : Parser} (h : InPlain p) (c : Nat) : InPlain (addPlain p c) := by
  unfold addPlain
  split <;> exact ⟨h.st, h.quoted⟩

theorem addPlain_buf (p : Parser) (c : Nat) : (addPlain p c).buf = p.buf ++ [c] := by unfold addPlain; split <;> rfl

/-- the state after `s` in an unquoted field; the trailing blanks are counted -/
def plainAfter (p : Parser) (s : List Nat) : Parser := s.foldl addPlain p

theorem runs_plain {p : Parser} (h : InPlain p) (s : List Nat) (hs : ∀ c ∈ s, c ≠ p.delim ∧ c ≠ p.quote ∧ c ≠ 13 ∧ c ≠ 10) :
    Runs p s [] (plainAfter p s) := by
  induction s generalizing p with
  | nil => exact .nil p
  | cons c s ih =>
    obtain ⟨h1, h2, h3, h4⟩ := hs c (by simp)
    have e : (addPlain p c).delim = p.delim ∧ (addPlain p c).quote = p.quote := by unfold addPlain; split <;> exact ⟨rfl, rfl⟩
    exact .cons (steps_plain h c h1 h2 h3 h4) (ih (addPlain_inPlain h c) (by rw [e.1, e.2]; exact fun x hx => hs x (List.mem_cons_of_mem _ hx)))

theorem plainAfter_append (p : Parser) (s t : List Nat) : plainAfter p (s ++ t) = plainAfter (plainAfter p s) t := by
  unfold plainAfter; rw [List.foldl_append]

theorem plainAfter_buf (p : Parser) (s : List Nat) : (plainAfter p s).buf = p.buf ++ s := by
  induction s generalizing p with
  | nil => simp [plainAfter]
  | cons c s ih =>
    have : plainAfter p (c :: s) = plainAfter (addPlain p c) s := rfl
    rw [this, ih, addPlain_buf]
    simp

theorem plainAfter_inPlain {p : Parser} (h : InPlain p) (s : List Nat) : InPlain (plainAfter p s) := by
  induction s generalizing p with
  | nil => exact h
  | cons c s ih => exact ih (addPlain_inPlain h c)

theorem plainAfter_chars (p : Parser) (s : List Nat) : (plainAfter p s).delim = p.delim ∧ (plainAfter p s).quote = p.quote := by
  induction s generalizing p with
  | nil => exact ⟨rfl, rfl⟩
  | cons c s ih =>
    have e : (addPlain p c).delim = p.delim ∧ (addPlain p c).quote = p.quote := by unfold addPlain; split <;> exact ⟨rfl, rfl⟩
    have := ih (addPlain p c)
    rw [e.1, e.2] at this
    exact this

theorem plainAfter_blanks (p : Parser) (b : List Nat) (hb : ∀ c ∈ b, c = 32 ∨ c = 9) : (plainAfter p b).spaces = p.spaces + b.length := by
  induction b generalizing p with
  | nil => rfl
  | cons c b ih =>
    have : plainAfter p (c :: b) = plainAfter (addPlain p c) b := rfl
    rw [this, ih _ (fun x hx => hb x (List.mem_cons_of_mem _ hx))]
    have e : (addPlain p c).spaces = p.spaces + 1 := by unfold addPlain; rw [if_pos ((blank_iff c).2 (hb c (by simp)))]
    rw [e]
    simp only [List.length_cons]
    omega

theorem plainAfter_last (p : Parser) (s : List Nat) (x : Nat) (hs : s.getLast? = some x) (hx : ¬ (x = 32 ∨ x = 9)) : (plainAfter p s).spaces = 0 := by
  obtain ⟨t, rfl⟩ : ∃ t, s = t ++ [x] := by
    have hne : s ≠ [] := by rintro rfl; cases hs
    refine ⟨s.dropLast, ?_⟩
    rw [List.getLast?_eq_some_getLast hne] at hs
    injection hs with hs
    rw [← hs]
    exact (List.dropLast_concat_getLast hne).symm
  rw [plainAfter_append]
  show (addPlain _ x).spaces = 0
  unfold addPlain
  rw [if_neg (by rw [blank_iff]; exact hx)]

/-- in the text of a quoted field -/
structure InQuoted (p : Parser) : Prop where
  st : p.st = .fieldBegun
  quoted : p.quoted = true
  spaces : p.spaces = 0

theorem runs_quotedChar {p : Parser} (h : InQuoted p) (hc : Chars p.delim p.quote) (c : Nat) :
    Runs p (if c = p.quote then [p.quote, p.quote] else [c]) [] { p with buf := p.buf ++ [c] } := by
  by_cases h1 : c = p.quote
  · subst h1
    rw [if_pos rfl]
    have s1 : Steps p p.quote [] { p with st := .mightHaveEnded, buf := p.buf ++ [p.quote] } := by
      intro n hn
      refine ⟨?_, by simp⟩
      have := submitChar_ok { p with st := .mightHaveEnded } n (by show p.buf.length < n; omega) p.quote
      simp only [step, h.st, if_true, h.quoted]
      simp only [h.quoted] at this
      exact this
    have s2 : Steps { p with st := .mightHaveEnded, buf := p.buf ++ [p.quote] } p.quote [] { p with buf := p.buf ++ [p.quote] } := by
      intro n hn
      refine ⟨?_, by simp⟩
      have e1 : ¬ p.quote = p.delim := fun e => hc.1 e.symm
      have e2 : ¬ isTerm p.quote = true := by rw [term_iff]; rintro (e | e); exact hc.2.2.2.1 e; exact hc.2.2.2.2.1 e
      have e3 : ¬ isBlank p.quote = true := by rw [blank_iff]; rintro (e | e); exact hc.2.2.2.2.2.1 e; exact hc.2.2.2.2.2.2 e
      simp only [step, if_neg e1, if_neg e2, if_neg e3, if_true, h.spaces, gt_iff_lt, Nat.lt_irrefl, if_false, h.st]
    exact .cons s1 (.cons s2 (.nil _))
  · rw [if_neg h1]
    have s1 : Steps p c [] { p with buf := p.buf ++ [c] } := by
      intro n hn
      refine ⟨?_, by simp⟩
      have h0 := submitChar_ok p n (by omega) c
      obtain ⟨st, qd, sp, buf, z, d, qt⟩ := p
      obtain ⟨e1, e2, e3⟩ := h
      simp only at e1 e2 e3 h1
      subst e1 e2 e3
      simp only [step, if_neg h1, if_true, Bool.not_true, Bool.false_and, Bool.false_eq_true, if_false]
      split
      · exact h0
      · split
        · exact h0
        · exact h0
    exact .cons s1 (.nil _)

theorem runs_doubled {p : Parser} (h : InQuoted p) (hc : Chars p.delim p.quote) (f : List Nat) :
    Runs p (doubled p.quote f) [] { p with buf := p.buf ++ f } := by
  induction f generalizing p with
  | nil =>
    have e : ({ p with buf := p.buf ++ [] } : Parser) = p := by rw [List.append_nil]
    rw [e]
    exact .nil p
  | cons c f ih =>
    have := (runs_quotedChar h hc c).append (ih (p := { p with buf := p.buf ++ [c] }) ⟨h.st, h.quoted, h.spaces⟩ hc)
    simp only [List.append_assoc, List.cons_append, List.nil_append] at this
    exact this

theorem runs_trailing {p : Parser} (h : p.st = .mightHaveEnded) (b : List Nat) (hb : Blanks p.delim b) :
    Runs p b [] { p with buf := p.buf ++ b, spaces := p.spaces + b.length } := by
  induction b generalizing p with
  | nil =>
    have e : ({ p with buf := p.buf ++ [], spaces := p.spaces + ([] : List Nat).length } : Parser) = p := by rw [List.append_nil]; rfl
    rw [e]
    exact .nil p
  | cons c b ih =>
    have hc := hb c (by simp)
    have hs : Steps p c [] { p with buf := p.buf ++ [c], spaces := p.spaces + 1 } := by
      intro n hn
      refine ⟨?_, by simp⟩
      have := submitChar_ok { p with spaces := p.spaces + 1 } n (by show p.buf.length < n; omega) c
      simp only [h] at this
      have e2 : ¬ isTerm c = true := by
        rw [term_iff]
        rcases hc.1 with e | e <;> subst e <;> decide
      simp only [step, h, if_neg hc.2, if_neg e2, if_pos ((blank_iff c).2 hc.1)]
      exact this
    have := ih (p := { p with buf := p.buf ++ [c], spaces := p.spaces + 1 }) h (fun x hx => hb x (List.mem_cons_of_mem _ hx))
    have := Runs.cons hs this
    simp only [List.append_assoc, List.cons_append, List.nil_append] at this
    have e : p.spaces + 1 + b.length = p.spaces + (c :: b).length := by simp only [List.length_cons]; omega
    rw [e] at this
    exact this

/-- the text of field `f` has been read -/
def AtEnd (p : Parser) (f : List Nat) : Prop :=
  Inv p ∧ ((p.st = .mightHaveEnded ∧ fld (cut p) = f) ∨ (p.st = .fieldBegun ∧ p.quoted = false ∧ fld p = f) ∨ (Between p ∧ f = []))

theorem runs_written {p : Parser} (h : Between p) (hc : Chars p.delim p.quote) {f t : List Nat} (hw : Written p.delim p.quote f t) :
    ∃ q, Runs p t [] q ∧ AtEnd q f ∧ q.delim = p.delim ∧ q.quote = p.quote ∧ (q.st = .rowNotBegun → p.st = .rowNotBegun ∧ Blanks p.delim t) ∧
      (p.st = .fieldNotBegun → q.st ≠ .rowNotBegun) := by
  cases hw with
  | plain hf hb hb' =>
    rename_i b b'
    cases f with
    | nil =>
      have hall : Blanks p.delim (b ++ [] ++ b') := by
        intro c hc
        simp only [List.append_nil, List.mem_append] at hc
        exact hc.elim (hb c) (hb' c)
      exact ⟨p, runs_blanks h _ hall, ⟨h.inv, .inr (.inr ⟨h, rfl⟩)⟩, rfl, rfl, fun hst => ⟨hst, hall⟩, fun hst => by rw [hst]; decide⟩
    | cons c f =>
      obtain ⟨hf1, hf2⟩ := hf
      obtain ⟨c1, c2, c3, c4⟩ := hf1 c (by simp)
      have hcb := hf2 c (.inl rfl)
      let q : Parser := { p with st := .fieldBegun, quoted := false, buf := [c] }
      have hq : InPlain q := ⟨rfl, rfl⟩
      have s1 : Steps p c [] q := by
        intro n hn
        have e1 : ¬ (isBlank c = true ∧ c ≠ p.delim) := by
          rw [blank_iff]
          rintro ⟨e | e, _⟩
          · exact hcb.1 e
          · exact hcb.2 e
        have e2 : ¬ isTerm c = true := by rw [term_iff]; rintro (e | e) <;> contradiction
        have := submitChar_ok { p with st := .fieldBegun, quoted := false } n (by show p.buf.length < n; omega) c
        simp only [h.buf, List.nil_append] at this
        refine ⟨?_, by simp [q]⟩
        rcases h.st with e | e <;> simp only [step, e, if_neg e1, if_neg e2, if_neg c1, if_neg c2, h.buf] <;> exact this
      have hb1 : ∀ x ∈ b', x = 32 ∨ x = 9 := fun x hx => (hb' x hx).1
      have r1 : Runs q (f ++ b') [] (plainAfter q (f ++ b')) := by
        refine runs_plain hq _ ?_
        intro x hx
        rcases List.mem_append.1 hx with hx | hx
        · exact hf1 x (List.mem_cons_of_mem _ hx)
        · have := hb' x hx
          refine ⟨this.2, ?_, ?_, ?_⟩
          · rcases this.1 with e | e <;> rw [e]
            · exact fun e' => hc.2.2.2.2.2.1 e'.symm
            · exact fun e' => hc.2.2.2.2.2.2 e'.symm
          · rcases this.1 with e | e <;> rw [e] <;> decide
          · rcases this.1 with e | e <;> rw [e] <;> decide
      have hsp : (plainAfter q (f ++ b')).spaces = b'.length := by
        rw [plainAfter_append, plainAfter_blanks _ _ hb1]
        have : (plainAfter q f).spaces = 0 := by
          cases hl : f.getLast? with
          | none =>
            rw [List.getLast?_eq_none_iff] at hl
            subst hl
            show p.spaces = 0
            exact h.spaces
          | some x =>
            refine plainAfter_last q f x hl ?_
            have := hf2 x (.inr (by
              have hne : f ≠ [] := by rintro rfl; cases hl
              rw [List.getLast?_cons_of_ne_nil hne, hl]))
            rintro (e | e)
            · exact this.1 e
            · exact this.2 e
        omega
      have hbuf : (plainAfter q (f ++ b')).buf = c :: (f ++ b') := by rw [plainAfter_buf]; rfl
      have hin := plainAfter_inPlain hq (f ++ b')
      have hch := plainAfter_chars q (f ++ b')
      refine ⟨plainAfter q (f ++ b'), ?_, ⟨?_, .inr (.inl ⟨hin.st, hin.quoted, ?_⟩)⟩, hch.1, hch.2, fun hst => ?_, fun _ => ?_⟩
      · have e : b ++ c :: f ++ b' = b ++ (c :: (f ++ b')) := by simp
        rw [e]
        exact (runs_blanks h b hb).append (.cons s1 r1)
      · unfold Inv
        simp only [hin.st, hin.quoted, hsp, hbuf, Bool.false_eq_true, if_false, List.length_cons, List.length_append]
        omega
      · unfold fld
        simp only [hin.quoted, hsp, hbuf, Bool.false_eq_true, if_false]
        have e : (c :: (f ++ b')).length - b'.length = (c :: f).length := by simp only [List.length_cons, List.length_append]; omega
        rw [e, ← List.cons_append, List.take_left]
      · rw [hin.st] at hst; cases hst
      · rw [hin.st]; decide
  | quoted hb hb' =>
    rename_i b b'
    let q : Parser := { p with st := .fieldBegun, quoted := true }
    have hq : InQuoted q := ⟨rfl, rfl, h.spaces⟩
    have s1 : Steps p p.quote [] q := by
      intro n hn
      have e1 : ¬ (isBlank p.quote = true ∧ p.quote ≠ p.delim) := by
        rw [blank_iff]
        rintro ⟨e | e, _⟩
        · exact hc.2.2.2.2.2.1 e
        · exact hc.2.2.2.2.2.2 e
      have e2 : ¬ isTerm p.quote = true := by rw [term_iff]; rintro (e | e); exact hc.2.2.2.1 e; exact hc.2.2.2.2.1 e
      have e3 : ¬ p.quote = p.delim := fun e => hc.1 e.symm
      refine ⟨?_, by simp [q]⟩
      rcases h.st with e | e <;> simp only [step, e, if_neg e1, if_neg e2, if_neg e3, if_true] <;> rfl
    have r1 := runs_doubled hq hc f
    let q2 : Parser := { q with buf := q.buf ++ f }
    have s2 : Steps q2 p.quote [] { q2 with st := .mightHaveEnded, buf := q2.buf ++ [p.quote] } := by
      intro n hn
      refine ⟨?_, by simp⟩
      have := submitChar_ok { q2 with st := .mightHaveEnded } n (by show q2.buf.length < n; omega) p.quote
      show (if p.quote = p.quote then submitChar ({ q2 with st := .mightHaveEnded, size := n }) p.quote else _) = _
      rw [if_pos rfl]
      exact this
    let q3 : Parser := { q2 with st := .mightHaveEnded, buf := q2.buf ++ [p.quote] }
    have r3 := runs_trailing (p := q3) rfl b' hb'
    have hb2 : q3.buf = f ++ [p.quote] := by show p.buf ++ f ++ [p.quote] = _; rw [h.buf, List.nil_append]
    have hsp : q3.spaces = 0 := h.spaces
    refine ⟨{ q3 with buf := q3.buf ++ b', spaces := q3.spaces + b'.length }, ?_, ⟨?_, .inl ⟨rfl, ?_⟩⟩, rfl, rfl, fun e => ?_, fun _ => ?_⟩
    · have x := (runs_blanks h b hb).append ((Runs.cons s1 (r1.append (.cons s2 (.nil _)))).append r3)
      have e : b ++ (p.quote :: doubled p.quote f ++ [p.quote]) ++ b' = b ++ (p.quote :: (doubled q.quote f ++ [p.quote]) ++ b') := by simp [q]
      rw [e]
      exact x
    · unfold Inv
      show true = true ∧ q3.spaces + b'.length + 1 ≤ (q3.buf ++ b').length
      rw [hsp, hb2]
      simp only [List.length_append, List.length_cons, List.length_nil]
      exact ⟨trivial, by omega⟩
    · show (q3.buf ++ b').take ((q3.buf ++ b').length - (q3.spaces + b'.length + 1)) = f
      rw [hsp, hb2]
      have e : (f ++ [p.quote] ++ b').length - (0 + b'.length + 1) = f.length := by simp only [List.length_append, List.length_cons, List.length_nil]; omega
      rw [e, List.append_assoc, List.take_left]
    · cases e
    · intro e; cases e

theorem AtEnd.delim {p : Parser} {f : List Nat} (h : AtEnd p f) (hc : Chars p.delim p.quote) : Steps p p.delim [.field f] (ended p) := by
  have e2 : ¬ isTerm p.delim = true := by rw [term_iff]; rintro (e | e); exact hc.2.1 e; exact hc.2.2.1 e
  intro n hn
  refine ⟨?_, Nat.zero_le _⟩
  obtain ⟨hi, ⟨hst, hf⟩ | ⟨hst, hq, hf⟩ | ⟨hb, hf⟩⟩ := h
  · unfold Inv at hi
    simp only [hst] at hi
    have hd : dropLast (p.sz n) (p.spaces + 1) = .ok ((cut p).sz n) := dropLast_ok p n (p.spaces + 1) hi.2
    have := submitField_ok (p := cut p) (by intro h0; have h0 : p.quoted = false := h0; rw [hi.1] at h0; cases h0) n (by simp only [cut, List.length_take]; omega)
    simp only [step, hst, if_true]
    rw [hd, Res.bind_ok, this, hf]
    rfl
  · unfold Inv at hi
    simp only [hst, hq] at hi
    have := submitField_ok (p := p) (by intro _; simpa using hi) n (by omega)
    simp only [step, hst, if_neg hc.1, if_true, hq, Bool.false_eq_true, if_false]
    rw [this, hf]
  · have := submitField_ok (p := p) (by intro _; have := hb.spaces; omega) n (by omega)
    have hf' : fld p = f := by unfold fld; rw [hb.buf, hf]; simp
    have e1 : ¬ (isBlank p.delim = true ∧ p.delim ≠ p.delim) := fun h => h.2 rfl
    rcases hb.st with e | e <;> simp only [step, e, if_neg e1, if_neg e2, if_true] <;> rw [this, hf']

theorem AtEnd.term {p : Parser} {f : List Nat} (h : AtEnd p f) (hc : Chars p.delim p.quote) (hst : p.st ≠ .rowNotBegun) (c : Nat) (hct : c = 13 ∨ c = 10) :
    Steps p c [.field f, .row c] (rowEnded p) := by
  have e2 : isTerm c = true := (term_iff c).2 hct
  have e3 : ¬ c = p.delim := by rintro rfl; rcases hct with e | e; exact hc.2.1 e; exact hc.2.2.1 e
  have e4 : ¬ c = p.quote := by rintro rfl; rcases hct with e | e; exact hc.2.2.2.1 e; exact hc.2.2.2.2.1 e
  intro n hn
  refine ⟨?_, Nat.zero_le _⟩
  obtain ⟨hi, ⟨hst, hf⟩ | ⟨hst, hq, hf⟩ | ⟨hb, hf⟩⟩ := h
  · unfold Inv at hi
    simp only [hst] at hi
    have hd : dropLast (p.sz n) (p.spaces + 1) = .ok ((cut p).sz n) := dropLast_ok p n (p.spaces + 1) hi.2
    have := submitBoth_ok (p := cut p) (by intro h0; have h0 : p.quoted = false := h0; rw [hi.1] at h0; cases h0) n (by simp only [cut, List.length_take]; omega) c
    simp only [step, hst, if_neg e3, if_pos e2]
    rw [hd, Res.bind_ok, this, hf]
    rfl
  · unfold Inv at hi
    simp only [hst, hq] at hi
    have := submitBoth_ok (p := p) (by intro _; simpa using hi) n (by omega) c
    simp only [step, hst, if_neg e4, if_neg e3, if_pos e2, hq, Bool.false_eq_true, if_false]
    rw [this, hf]
  · have := submitBoth_ok (p := p) (by intro _; have := hb.spaces; omega) n (by omega) c
    have hf' : fld p = f := by unfold fld; rw [hb.buf, hf]; simp
    have e1 : ¬ (isBlank c = true ∧ c ≠ p.delim) := by rw [blank_iff]; rcases hct with e | e <;> subst e <;> simp
    rcases hb.st with e | e
    · exact absurd e hst
    · simp only [step, e, if_neg e1, if_pos e2, if_true]; rw [this, hf']

theorem AtEnd.fini {p : Parser} {f : List Nat} (h : AtEnd p f) (hst : p.st ≠ .rowNotBegun) (hlt : p.buf.length < p.size) :
    Csv.fini p = .ok ([.field f, .row (-1)], clear p) := by
  rw [fini_open h.1 hlt hst]
  obtain ⟨hi, ⟨hst, hf⟩ | ⟨hst, hq, hf⟩ | ⟨hb, hf⟩⟩ := h
  · rw [if_pos hst, hf]
  · rw [if_neg (by rw [hst]; decide), hf]
  · have hf' : fld p = f := by unfold fld; rw [hb.buf, hf]; simp
    rw [if_neg (by rcases hb.st with e | e <;> rw [e] <;> decide), hf']

theorem ended_between (p : Parser) : Between (ended p) := ⟨.inr rfl, rfl, rfl, rfl⟩
theorem rowEnded_between (p : Parser) : Between (rowEnded p) := ⟨.inl rfl, rfl, rfl, rfl⟩

/-- the text of a row: all fields but the last have been reported, the last one is complete -/
theorem runs_row {p : Parser} (h : Between p) (hc : Chars p.delim p.quote) {fs : List (List Nat)} {t : List Nat} (hw : WrittenRow p.delim p.quote fs t)
    (hne : p.st = .fieldNotBegun ∨ ¬ Blanks p.delim t) :
    ∃ fs' f q, fs = fs' ++ [f] ∧ Runs p t (fs'.map .field) q ∧ AtEnd q f ∧ q.delim = p.delim ∧ q.quote = p.quote ∧ q.st ≠ .rowNotBegun := by
  generalize hd : p.delim = d at hw hne
  generalize hq : p.quote = qt at hw
  induction hw generalizing p with
  | one hw =>
    rename_i f t
    obtain ⟨q, hr, ha, h1, h2, h3, h4⟩ := runs_written h hc (by rw [hd, hq]; exact hw)
    refine ⟨[], f, q, rfl, hr, ha, by rw [h1, hd], by rw [h2, hq], ?_⟩
    rcases hne with hne | hne
    · exact h4 hne
    · exact fun e => hne (by have := (h3 e).2; rw [hd] at this; exact this)
  | cons hw hws ih =>
    rename_i f t fs ts
    obtain ⟨q, hr, ha, h1, h2, _, _⟩ := runs_written h hc (by rw [hd, hq]; exact hw)
    have hd' : q.delim = d := by rw [h1, hd]
    have hq' : q.quote = qt := by rw [h2, hq]
    have hc' : Chars q.delim q.quote := by rw [h1, h2]; exact hc
    have s1 := ha.delim hc'
    rw [hd'] at s1
    obtain ⟨fs', f', r, e, hr', ha', h5, h6, h7⟩ := ih (ended_between q) (by show Chars q.delim q.quote; exact hc') hd' (.inl rfl) hq'
    refine ⟨f :: fs', f', r, by rw [e]; rfl, ?_, ha', h5, h6, h7⟩
    have := hr.append (Runs.cons s1 hr')
    exact this

/-- a row with its line end -/
theorem runs_line {p : Parser} (h : Between p) (hp : p.st = .rowNotBegun) (hc : Chars p.delim p.quote) {fs : List (List Nat)} {t e : List Nat}
    (hw : WrittenRow p.delim p.quote fs t) (hne : ¬ Blanks p.delim t) (he : LineEnd e) :
    ∃ q, Runs p (t ++ e) (rowEvents fs (e.headD 0 : Nat)) q ∧ Between q ∧ q.st = .rowNotBegun ∧ q.delim = p.delim ∧ q.quote = p.quote := by
  obtain ⟨fs', f, q, rfl, hr, ha, h1, h2, h3⟩ := runs_row h hc hw (.inr hne)
  have hc' : Chars q.delim q.quote := by rw [h1, h2]; exact hc
  have key : ∀ c : Nat, (c = 13 ∨ c = 10) → Runs p (t ++ [c]) (rowEvents (fs' ++ [f]) c) (rowEnded q) := by
    intro c hct
    have := hr.append (Runs.cons (ha.term hc' h3 c hct) (.nil _))
    simp only [List.append_nil] at this
    unfold rowEvents
    simp only [List.map_append, List.map_cons, List.map_nil, List.append_assoc, List.cons_append, List.nil_append]
    exact this
  rcases he with rfl | rfl
  · exact ⟨rowEnded q, key 10 (.inr rfl), rowEnded_between q, rfl, h1, h2⟩
  · have s2 : Steps (rowEnded q) 10 [] (rowEnded q) := by
      intro n hn
      refine ⟨?_, by omega⟩
      have e1 : ¬ (isBlank 10 = true ∧ 10 ≠ q.delim) := by rintro ⟨h, _⟩; revert h; decide
      have hst : (rowEnded q).st = .rowNotBegun := rfl
      simp only [step, hst]
      show (if isBlank 10 = true ∧ 10 ≠ q.delim then _ else _) = _
      rw [if_neg e1]
      rfl
    have := (key 13 (.inl rfl)).append (Runs.cons s2 (.nil _))
    simp only [List.append_nil, List.append_assoc, List.cons_append, List.nil_append] at this
    exact ⟨rowEnded q, this, rowEnded_between q, rfl, h1, h2⟩

end Verif.Csv
