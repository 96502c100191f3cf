import Verif.Proof.CsvReader
/-!
# Opening a CSV file
-/

namespace Verif.Text
open Verif Verif.Csv Verif.CLib Verif.Spec.Csv Verif.Spec.Text
open Verif.Reader (Request Vals Fld sWrap newRequest)

theorem getline_head {bytes : List Nat} (h : bytes ≠ []) : ∃ e, (e = [] ∨ e = [10]) ∧ getline bytes 0 = some (head bytes ++ e) := by
  unfold getline
  rw [List.drop_zero]
  split
  · exact absurd rfl h
  · unfold head
    by_cases h10 : 10 ∈ bytes
    · exact ⟨[10], .inr rfl, by rw [if_pos h10]⟩
    · exact ⟨[], .inl rfl, by rw [if_neg h10]⟩

theorem cstr_noNul {s : List Nat} (h : 0 ∉ s) : cstr s = s := by
  unfold cstr
  rw [List.takeWhile_eq_self_iff]
  intro c hc
  simp only [decide_eq_true_eq]
  rintro rfl
  exact h hc

theorem head_sub {bytes : List Nat} {x : Nat} (h : x ∈ head bytes) : x ∈ bytes := (List.takeWhile_sublist _).subset h

/-- the loop over the candidates -/
def pickOf (line : List Nat) (acc x : Nat × Nat) : Nat × Nat := if line.count x.1 * x.2 > acc.1 then (line.count x.1 * x.2, x.1) else acc

theorem pick_small {line : List Nat} (l : List (Nat × Nat)) (acc : Nat × Nat) (h : ∀ x ∈ l, x.2 * line.count x.1 ≤ acc.1) : l.foldl (pickOf line) acc = acc := by
  induction l with
  | nil => rfl
  | cons x l ih =>
    have hx := h x (by simp)
    rw [Nat.mul_comm] at hx
    rw [List.foldl_cons]
    have e : pickOf line acc x = acc := by unfold pickOf; rw [if_neg (by omega)]
    rw [e]
    exact ih (fun y hy => h y (List.mem_cons_of_mem _ hy))

theorem pick_below {line : List Nat} (l : List (Nat × Nat)) (acc : Nat × Nat) (b : Nat) (hacc : acc.1 < b) (h : ∀ x ∈ l, x.2 * line.count x.1 < b) :
    (l.foldl (pickOf line) acc).1 < b := by
  induction l generalizing acc with
  | nil => exact hacc
  | cons x l ih =>
    have hx := h x (by simp)
    rw [Nat.mul_comm] at hx
    rw [List.foldl_cons]
    refine ih _ ?_ (fun y hy => h y (List.mem_cons_of_mem _ hy))
    unfold pickOf
    split
    · exact hx
    · exact hacc

theorem pick_favoured {line : List Nat} {d : Nat} (h : Favoured line d) : (candidates.foldl (pickOf line) (0, 0)).2 = d ∧ d ≠ 0 := by
  obtain ⟨pre, w, post, h1, h2, h3, h4⟩ := h
  have hmem : (d, w) ∈ candidates := by rw [h1]; simp
  have hw : 0 < w ∧ d ≠ 0 := by
    simp only [candidates, List.mem_cons, Prod.mk.injEq, List.not_mem_nil, or_false] at hmem
    omega
  refine ⟨?_, hw.2⟩
  rw [h1, List.foldl_append, List.foldl_cons]
  have hb := pick_below pre (0, 0) (w * line.count d) (Nat.mul_pos hw.1 h2) h3
  have e : pickOf line (pre.foldl (pickOf line) (0, 0)) (d, w) = (line.count d * w, d) := by
    conv => lhs; unfold pickOf
    rw [if_pos]
    simp only
    rw [Nat.mul_comm]
    exact hb
  rw [e, pick_small]
  intro x hx
  have := h4 x hx
  rw [Nat.mul_comm w] at this
  exact this

theorem firstLine_ok {bytes : List Nat} (h : bytes ≠ []) (hl : (head bytes).length < 1023) : ∃ e, (e = [] ∨ e = [10]) ∧ firstLine bytes = .ok (head bytes ++ e) := by
  obtain ⟨e, he, hg⟩ := getline_head h
  refine ⟨e, he, ?_⟩
  unfold firstLine
  rw [hg]
  simp only
  rw [if_pos]
  rw [List.length_append]
  rcases he with rfl | rfl
  · simp only [List.length_nil]; omega
  · simp only [List.length_cons, List.length_nil]; omega

theorem detect_ok {bytes : List Nat} {d : Nat} (h0 : 0 ∉ bytes) (hl : (head bytes).length < 1023) (h : Favoured (head bytes) d) : detectDelimiter bytes = .ok d := by
  have hne : bytes ≠ [] := by
    rintro rfl
    obtain ⟨pre, w, post, h1, h2, h3, h4⟩ := h
    simp [head] at h2
  obtain ⟨e, he, hf⟩ := firstLine_ok hne hl
  have hz : 0 ∉ head bytes ++ e := by
    intro hm
    rcases List.mem_append.1 hm with hm | hm
    · exact h0 (head_sub hm)
    · rcases he with rfl | rfl
      · cases hm
      · simp at hm
  have hcount : ∀ x ∈ candidates, (head bytes ++ e).count x.1 = (head bytes).count x.1 := by
    intro x hx
    rw [List.count_append]
    have : e.count x.1 = 0 := by
      rcases he with rfl | rfl
      · rfl
      · rw [List.count_eq_zero]
        simp only [candidates, List.mem_cons, List.not_mem_nil, or_false] at hx
        rcases hx with rfl | rfl | rfl | rfl <;> decide
    omega
  unfold detectDelimiter
  rw [hf, Res.bind_ok]
  simp only
  rw [cstr_noNul hz]
  have hp := pick_favoured h
  have hfold : List.foldl (fun (acc : Nat × Nat) (p : Nat × Nat) => if (head bytes ++ e).count p.1 * p.2 > acc.1 then ((head bytes ++ e).count p.1 * p.2, p.1) else acc) (0, 0)
      [(9, 4), (44, 3), (124, 2), (58, 1)] = candidates.foldl (pickOf (head bytes)) (0, 0) := by
    refine List.foldl_ext _ _ _ ?_
    intro acc x hx
    unfold pickOf
    rw [hcount x hx]
  rw [hfold, hp.1, if_pos hp.2]

theorem header_ok {bytes : List Nat} {b : Bool} (hne : bytes ≠ []) (hl : (head bytes).length < 1023) (h : b = true ↔ digits (head bytes) ≤ letters (head bytes)) :
    detectHeader bytes = .ok b := by
  obtain ⟨e, he, hf⟩ := firstLine_ok hne hl
  unfold detectHeader
  rw [hf, Res.bind_ok]
  have e1 : (head bytes ++ e).countP isDigit = digits (head bytes) := by
    rw [List.countP_append]
    have : e.countP isDigit = 0 := by rcases he with rfl | rfl <;> rfl
    rw [this, Nat.add_zero]
    unfold digits
    refine List.countP_congr ?_
    intro c _
    simp [isDigit]
  have e2 : (head bytes ++ e).countP isAlpha = letters (head bytes) := by
    rw [List.countP_append]
    have : e.countP isAlpha = 0 := by rcases he with rfl | rfl <;> rfl
    rw [this, Nat.add_zero]
    unfold letters
    refine List.countP_congr ?_
    intro c _
    simp [isAlpha]
  rw [e1, e2]
  congr 1
  cases b with
  | true =>
    have := h.1 rfl
    simp only [Bool.not_eq_true', decide_eq_false_iff_not]
    omega
  | false =>
    have : ¬ digits (head bytes) ≤ letters (head bytes) := fun h' => by cases h.2 h'
    simp only [Bool.not_eq_false', decide_eq_true_eq]
    omega

theorem setup_ok {bytes : List Nat} {p : Params} {d : Nat} {h : Bool} {rows : List (List (List Nat))} (h0 : 0 ∉ bytes) (hs : p.start = 0)
    (hd : DelimiterFound p bytes d) (hh : HeaderFound p bytes h) (hf : CsvFile d rows h bytes) :
    ∃ rd c text, setupCsv bytes p = .ok rd ∧ At d p true rd c text ∧ Lines d rows text ∧ rd.nLeft = 0 ∧ rd.nRead = 0 ∧ rd.bytes = bytes ∧ rd.params = p ∧
      c.hasHeader = h ∧ c.delimiter = d ∧ d ≠ 0 ∧ c.parser = { delim := d } ∧ rd.pos = (if h then ((getline bytes 0).getD []).length else 0) ∧ rd.start = rd.pos ∧ text = body h bytes := by
  have hne : bytes ≠ [] := by
    rintro rfl
    rcases hd with ⟨_, _, hm⟩ | ⟨_, _, pre, w, post, h1, h2, h3, h4⟩
    · cases hm
    · simp [head] at h2
  have hd0 : d ≠ 0 := by
    rcases hd with ⟨h1, h2, _⟩ | ⟨_, _, hfv⟩
    · rw [← h2]; exact h1
    · exact (pick_favoured hfv).2
  have e1 : (if p.delimiter = 0 then detectDelimiter bytes else .ok p.delimiter) = .ok d := by
    rcases hd with ⟨h1, h2, _⟩ | ⟨h1, h2, h3⟩
    · rw [if_neg h1, h2]
    · rw [if_pos h1, detect_ok h0 h2 h3]
  have e2 : (if p.hasHeaderSet then .ok p.hasHeader else detectHeader bytes) = (.ok h : Res Bool) := by
    rcases hh with ⟨h1, h2⟩ | ⟨h1, h2, h3⟩
    · rw [if_pos h1, h2]
    · rw [if_neg (by rw [h1]; decide), header_ok hne h2 h3]
  obtain ⟨e, he, hg⟩ := getline_head hne
  have e3 : checkDelimiter bytes p.delimiter = .ok true := by
    unfold checkDelimiter
    rw [hg]
    simp only
    congr 1
    rcases hd with ⟨h1, h2, h3⟩ | ⟨h1, _, _⟩
    · have hz : 0 ∉ head bytes ++ e := by
        intro hm
        rcases List.mem_append.1 hm with hm | hm
        · exact h0 (head_sub hm)
        · rcases he with rfl | rfl
          · cases hm
          · simp at hm
      rw [cstr_noNul hz, h2]
      simp only [Bool.or_eq_true, decide_eq_true_eq, List.contains_iff_mem, List.mem_append]
      exact .inr (.inl h3)
    · rw [h1]
      rfl
  generalize hrd : (({ csv := some { parser := { delim := d }, timeField := p.timeField, idField := p.idField, sizeField := p.sizeField, cntField := p.cntField, hasHeader := h, delimiter := d }, bytes := bytes, start := if h then (if h then ((getline bytes 0).getD []).length else 0) else p.start, mmapOff := p.start, pos := if h then ((getline bytes 0).getD []).length else 0, idIsNum := p.idIsNum, ignoreZero := p.ignoreZero, ignoreSize := p.ignoreSize, cap := p.cap, params := p } : TReader)) = rd
  have hset : setupCsv bytes p = .ok rd := by
    unfold setupCsv
    rw [e1, Res.bind_ok, e2, Res.bind_ok, e3, Res.bind_ok]
    simp only [if_true]
    rw [hrd]
  have hlen : rd.mmapOff < rd.bytes.length := by
    rw [← hrd]
    simp only [hs]
    exact List.length_pos_iff.2 hne
  refine ⟨rd, { parser := { delim := d }, timeField := p.timeField, idField := p.idField, sizeField := p.sizeField, cntField := p.cntField, hasHeader := h, delimiter := d }, bytes.drop rd.pos, hset,
    ⟨by rw [← hrd], fresh_init d, rfl, ⟨rfl, rfl, rfl, rfl⟩, by rw [← hrd]; exact ⟨rfl, rfl, rfl, rfl⟩, by rw [← hrd], hlen, by rw [← hrd]⟩, ?_, by rw [← hrd], by rw [← hrd], by rw [← hrd], by rw [← hrd], rfl, rfl, hd0, rfl, by rw [← hrd], ?_, ?_⟩
  · cases hf with
    | plain hL =>
      rw [← hrd]
      exact hL
    | headed hn hL =>
      rename_i hd' text
      rw [← hrd]
      simp only [if_true]
      have hg : getline (hd' ++ 10 :: text) 0 = some (hd' ++ [10]) := getline_line (by rw [List.drop_zero]) hn
      rw [hg, Option.getD_some]
      have : hd' ++ 10 :: text = (hd' ++ [10]) ++ text := by simp
      rw [this, List.drop_left]
      exact hL
  · rw [← hrd]
    cases h with
    | false => exact hs
    | true => rfl
  · cases hf with
    | plain hL =>
      rw [← hrd]
      rfl
    | headed hn hL =>
      rename_i hd' text
      rw [← hrd]
      simp only [if_true]
      have hg : getline (hd' ++ 10 :: text) 0 = some (hd' ++ [10]) := getline_line (by rw [List.drop_zero]) hn
      rw [hg, Option.getD_some]
      have : hd' ++ 10 :: text = (hd' ++ [10]) ++ text := by simp
      rw [this, List.drop_left]
      unfold body
      rw [if_pos rfl, List.append_assoc, List.dropWhile_append_of_pos (by intro c hc; simp only [decide_eq_true_eq]; rintro rfl; exact hn hc), List.cons_append, List.dropWhile_cons_of_neg (by simp)]
      rfl

end Verif.Text
