import Verif.Proof.CsvReader
/-!
# C51: the CSV parser and writer (libcsv.c)
-/

namespace Verif.Props.LibCsv
open Verif Verif.Csv Verif.Spec.Csv

/-- a new parser -/
def new (delim quote : Nat) : Parser := { delim := delim, quote := quote }

theorem called_ready {d q : Nat} {p : Parser} (h : Called (new d q) p) : Ready p := by
  induction h with
  | init => exact ⟨⟨rfl, rfl, rfl⟩, fun _ => rfl, fun h => absurd rfl h⟩
  | parse _ hp ih =>
    obtain ⟨es, p', h1, h2⟩ := parse_safe ih _
    rw [h1] at hp
    simp only [Except.ok.injEq, Prod.mk.injEq] at hp
    rw [← hp.2]
    exact h2
  | fini _ hp ih =>
    obtain ⟨es, h1, h2⟩ := fini_safe ih
    rw [h1] at hp
    simp only [Except.ok.injEq, Prod.mk.injEq] at hp
    rw [← hp.2]
    exact h2

/-- **C51** memory safety: whatever was parsed before, in whatever pieces, parsing any bytes and finishing never writes outside the entry buffer -/
theorem C51_safe (d q : Nat) (p : Parser) (h : Called (new d q) p) (s : List Nat) :
    (∃ es p', parse p s = .ok (es, p')) ∧ ∃ es p', fini p = .ok (es, p') := by
  obtain ⟨es, p', h1, _⟩ := parse_safe (called_ready h) s
  obtain ⟨es', h2, _⟩ := fini_safe (called_ready h)
  exact ⟨⟨es, p', h1⟩, es', _, h2⟩

/-- a field of 300 bytes, longer than the first buffer -/
example : ∃ es p', parse (new 44 34) (List.replicate 300 65 ++ [44]) = .ok (es, p') ∧ p'.size = 384 ∧ es = [.field (List.replicate 300 65)] := by
  exact ⟨[.field (List.replicate 300 65)], ⟨.fieldNotBegun, false, 0, [], 384, 44, 34⟩, by decide +kernel, rfl, rfl⟩

/-- **C51** the callbacks do not depend on how the text is cut into pieces -/
theorem C51_chunks (d q : Nat) (p : Parser) (h : Called (new d q) p) (ss : List (List Nat)) : parseChunks p ss = parse p ss.flatten := by
  have hpe : ∀ p : Parser, parse p [] = .ok ([], p) := by
    intro p
    unfold parse
    rw [if_neg (by simp)]
    rfl
  induction ss generalizing p with
  | nil => rw [List.flatten_nil, hpe]; rfl
  | cons s ss ih =>
    have key : parse p (s ++ ss.flatten) = parse p s >>= fun r => parse r.2 ss.flatten >>= fun u => .ok (r.1 ++ u.1, u.2) := by
      by_cases hs : s = []
      · subst hs
        rw [hpe, Res.bind_ok, List.nil_append]
        simp only [List.nil_append]
        cases parse p ss.flatten with
        | error f => rfl
        | ok u => rfl
      · obtain ⟨es, p1, hr, hi⟩ := runs_safe (called_ready h).1 s
        obtain ⟨m, hm, h1, h2⟩ := hr.parse (called_ready h) hi hs
        rw [h1, Res.bind_ok]
        have e : parse (p1.sz m) ss.flatten = loop (p1.sz m) ss.flatten := by
          unfold parse
          rw [if_neg]
          rintro ⟨h0, _⟩
          have h0 : m = 0 := h0
          omega
        simp only [e]
        have hs' : s ++ ss.flatten ≠ [] := by simp [hs]
        have h1' := h1
        unfold parse at h1' ⊢
        by_cases h0 : p.size = 0
        · rw [if_pos ⟨h0, hs⟩] at h1'
          rw [if_pos ⟨h0, hs'⟩, loop_append, h1', Res.bind_ok]
        · rw [if_neg (fun h => h0 h.1)] at h1'
          rw [if_neg (fun h => h0 h.1), loop_append, h1', Res.bind_ok]
    rw [List.flatten_cons, key]
    obtain ⟨es, p', h1, _⟩ := parse_safe (called_ready h) s
    simp only [parseChunks, h1, Res.bind_ok]
    rw [ih p' (.parse h h1)]

example : parseChunks (new 44 34) [[49, 44, 34], [], [50, 34], [34, 51, 34, 13], [10]] = .ok ([.field [49], .field [50, 34, 51], .row 13], ⟨.rowNotBegun, false, 0, [], 128, 44, 34⟩) := by decide +kernel

theorem told_fields (fs acc : List (List Nat)) (c : Int) (es : List Ev) : rowsTold acc (rowEvents fs c ++ es) = (rowsTold [] es).map ((acc ++ fs) :: ·) := by
  induction fs generalizing acc with
  | nil =>
    show rowsTold acc (.row c :: es) = _
    rw [List.append_nil]
    cases acc <;> rfl
  | cons f fs ih =>
    have : rowsTold acc (rowEvents (f :: fs) c ++ es) = rowsTold (acc ++ [f]) (rowEvents fs c ++ es) := by
      cases acc <;> rfl
    rw [this, ih, List.append_assoc]
    rfl

theorem text_runs {d q : Nat} (hc : Chars d q) {rows : List (List (List Nat))} {text : List Nat} (h : CsvText d q rows text) :
    ∀ p : Parser, Between p → p.st = .rowNotBegun → p.delim = d → p.quote = q →
      ∃ es p', Runs p text es p' ∧ Inv p' ∧ ∀ m, p'.buf.length < m → ∃ es', fini (p'.sz m) = .ok (es', clear (p'.sz m)) ∧ rowsTold [] (es ++ es') = some rows := by
  induction h with
  | nil =>
    intro p hb hst hd hq
    exact ⟨[], p, .nil p, hb.inv, fun m hm => ⟨[], fini_row hst, rfl⟩⟩
  | last hw hne =>
    intro p hb hst rfl rfl
    obtain ⟨fs', f, q, rfl, h1, h2, h3, h4, h5⟩ := runs_row hb hc hw (.inr hne)
    refine ⟨_, q, h1, h2.1, ?_⟩
    intro m hm
    have h2' : AtEnd (q.sz m) f := by
      obtain ⟨hi, h | h | ⟨hb, hf⟩⟩ := h2
      · exact ⟨hi, .inl h⟩
      · exact ⟨hi, .inr (.inl h)⟩
      · exact ⟨hi, .inr (.inr ⟨⟨hb.st, hb.buf, hb.quoted, hb.spaces⟩, hf⟩)⟩
    refine ⟨_, h2'.fini h5 hm, ?_⟩
    have := told_fields (fs' ++ [f]) [] (-1) []
    simp only [rowEvents, List.map_append, List.map_cons, List.map_nil, List.append_assoc, List.append_nil, List.nil_append, List.cons_append] at this ⊢
    rw [this]
    rfl
  | cons hw hne he _ ih =>
    rename_i fs t e rows rest
    intro p hb hst rfl rfl
    obtain ⟨q, h1, h2, h3, h4, h5⟩ := runs_line hb hst hc hw hne he
    obtain ⟨es, p', h6, h7, h8⟩ := ih q h2 h3 h4 h5
    refine ⟨_, p', h1.append h6, h7, ?_⟩
    intro m hm
    obtain ⟨es', h9, h10⟩ := h8 m hm
    refine ⟨es', h9, ?_⟩
    rw [List.append_assoc, told_fields, h10]
    rfl

/-- **C51** a CSV text, with quoted or plain fields, blanks around them, and any line ends, is parsed into its rows and fields -/
theorem C51_parse (d q : Nat) (hc : Chars d q) (rows : List (List (List Nat))) (text : List Nat) (h : CsvText d q rows text) :
    ∃ es p es' p', parse (new d q) text = .ok (es, p) ∧ fini p = .ok (es', p') ∧ rowsTold [] (es ++ es') = some rows := by
  obtain ⟨es, p', h1, h2, h3⟩ := text_runs hc h (new d q) ⟨.inl rfl, rfl, rfl, rfl⟩ rfl rfl rfl
  by_cases hne : text = []
  · subst hne
    have : rows = [] := by
      generalize ht : ([] : List Nat) = t at h
      cases h with
      | nil => rfl
      | last hw hb => subst ht; exact absurd (by intro c hc; simp at hc) hb
      | cons hw hb he hr => rcases he with rfl | rfl <;> simp at ht
    subst this
    exact ⟨[], _, [], _, rfl, rfl, rfl⟩
  · obtain ⟨m, hm, h4, _⟩ := h1.parse (called_ready .init) h2 hne
    obtain ⟨es', h5, h6⟩ := h3 m hm
    exact ⟨_, _, _, _, h4, h5, h6⟩

/-- the text `1, "a""b" ,\r\n\t2` -/
example : CsvText 44 34 [[[49], [97, 34, 98], []], [[50]]] ((([] ++ [49] ++ []) ++ 44 :: (([32] ++ (34 :: doubled 34 [97, 34, 98] ++ [34]) ++ [32]) ++ 44 :: ([] ++ [] ++ [])) ++ [13, 10]) ++ ([9] ++ [50] ++ [])) := by
  have p1 : PlainField 44 34 [49] := ⟨by decide, by intro c hc; simp at hc; subst hc; decide⟩
  have p2 : PlainField 44 34 [50] := ⟨by decide, by intro c hc; simp at hc; subst hc; decide⟩
  have p3 : PlainField 44 34 [] := ⟨by decide, by intro c hc; simp at hc⟩
  refine .cons (.cons (.plain p1 (by intro c hc; simp at hc) (by intro c hc; simp at hc)) (.cons (.quoted (by intro c hc; simp at hc; subst hc; decide) (by intro c hc; simp at hc; subst hc; decide))
    (.one (.plain p3 (by intro c hc; simp at hc) (by intro c hc; simp at hc))))) ?_ (.inr rfl)
    (.last (.one (.plain p2 (by intro c hc; simp at hc; subst hc; decide) (by intro c hc; simp at hc))) ?_)
  · intro h; exact absurd (h 49 (by simp)).1 (by decide)
  · intro h; exact absurd (h 50 (by simp)).1 (by decide)

theorem write_full (q n : Nat) (f : List Nat) (h : (write q n f).2 ≤ n) : (write q n f).1 = q :: doubled q f ++ [q] := by
  unfold write at h ⊢
  simp only at h ⊢
  rw [List.take_of_length_le h]
  unfold quoteBytes doubled
  congr 2
  apply List.flatMap_congr
  intro c _
  by_cases hc : c = q
  · subst hc; rfl
  · rw [if_neg hc, if_neg hc]

theorem joined_row {d q n : Nat} (fs : List (List Nat)) (hne : fs ≠ []) (hn : ∀ f ∈ fs, (write q n f).2 ≤ n) :
    WrittenRow d q fs (joined d (fs.map (fun f => (write q n f).1))) := by
  have nb : Blanks d [] := by intro c hc; simp at hc
  have one : ∀ f ∈ fs, Written d q f (write q n f).1 := by
    intro f hf
    have := Written.quoted (delim := d) (quote := q) (f := f) nb nb
    rw [List.nil_append, List.append_nil] at this
    rw [write_full q n f (hn f hf)]
    exact this
  clear hn
  induction fs with
  | nil => exact absurd rfl hne
  | cons f fs ih =>
    cases fs with
    | nil => exact .one (one f (by simp))
    | cons g gs => exact .cons (one f (by simp)) (ih (by simp) (fun x hx => one x (List.mem_cons_of_mem _ hx)))

theorem joined_notBlank {d q n : Nat} (hc : Chars d q) (fs : List (List Nat)) (hne : fs ≠ []) (hn : ∀ f ∈ fs, (write q n f).2 ≤ n) :
    ¬ Blanks d (joined d (fs.map (fun f => (write q n f).1))) := by
  cases fs with
  | nil => exact absurd rfl hne
  | cons f fs =>
    intro h
    have hq : q ∈ joined d ((f :: fs).map (fun f => (write q n f).1)) := by
      rw [List.map_cons, write_full q n f (hn f (by simp))]
      cases fs with
      | nil => simp [joined]
      | cons g gs => simp [joined]
    rcases (h q hq).1 with e | e
    · exact hc.2.2.2.2.2.1 e
    · exact hc.2.2.2.2.2.2 e

/-- **C51** what `csv_write` writes is parsed back: any table of any byte strings, written field by field with delimiters in between and a newline after each row -/
theorem C51_roundtrip (d q n : Nat) (hc : Chars d q) (rows : List (List (List Nat))) (hne : ∀ fs ∈ rows, fs ≠ []) (hn : ∀ fs ∈ rows, ∀ f ∈ fs, (write q n f).2 ≤ n) :
    ∃ es p es' p', parse (new d q) (rows.flatMap (fun fs => joined d (fs.map (fun f => (write q n f).1)) ++ [10])) = .ok (es, p) ∧ fini p = .ok (es', p') ∧
      rowsTold [] (es ++ es') = some rows := by
  refine C51_parse d q hc rows _ ?_
  induction rows with
  | nil => exact .nil
  | cons fs rows ih =>
    rw [List.flatMap_cons]
    exact .cons (joined_row fs (hne fs (by simp)) (hn fs (by simp))) (joined_notBlank hc fs (hne fs (by simp)) (hn fs (by simp))) (.inl rfl)
      (ih (fun x hx => hne x (List.mem_cons_of_mem _ hx)) (fun x hx => hn x (List.mem_cons_of_mem _ hx)))

/-- fields with quotes, delimiters, newlines, and an empty one -/
example : ∀ f ∈ [[34], [44, 10], [], [13]], (write 34 5 f).2 ≤ 5 := by decide

/-- **C51** `csv_write` returns the length it needs: one byte per character, one more for each quote, and the two outer quotes; it never writes more than the buffer holds -/
theorem C51_write (q n : Nat) (f : List Nat) : (write q n f).2 = f.length + f.count q + 2 ∧ (write q n f).1.length = min n (write q n f).2 := by
  refine ⟨?_, ?_⟩
  · unfold write quoteBytes
    simp only [List.cons_append, List.length_cons, List.length_append, List.length_nil]
    have : (f.flatMap (fun c => if c = q then [q, c] else [c])).length = f.length + f.count q := by
      induction f with
      | nil => rfl
      | cons c f ih =>
        rw [List.flatMap_cons, List.length_append, ih, List.length_cons, List.count_cons]
        by_cases hc : c = q
        · subst hc
          simp
          omega
        · rw [if_neg hc, if_neg (by simpa using hc)]
          simp
          omega
    omega
  · unfold write
    simp only [List.length_take]

example : write 34 4 [34, 65] = ([34, 34, 34, 65], 5) := by decide

end Verif.Props.LibCsv
