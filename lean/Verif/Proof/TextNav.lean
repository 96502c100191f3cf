import Verif.Proof.CsvOpen
/-!
# Moving in text files
-/

namespace Verif.Text
open Verif Verif.Csv Verif.CLib Verif.Spec.Csv Verif.Spec.Text
open Verif.Reader (Request Vals Fld sWrap newRequest)

theorem strrchr_none {s : List Nat} {c : Nat} (h : c ∉ s) : strrchr s c = none := by
  unfold strrchr
  rw [if_neg]
  intro hm
  exact h ((List.takeWhile_sublist _).subset hm)

theorem strrchr_some {b l : List Nat} (h0 : 0 ∉ b) (h1 : 0 ∉ l) (h : 10 ∉ l) : strrchr (b ++ 10 :: l) 10 = some b.length := by
  unfold strrchr
  have hz : 0 ∉ b ++ 10 :: l := by
    simp only [List.mem_append, List.mem_cons]
    rintro (hm | hm | hm)
    · exact h0 hm
    · cases hm
    · exact h1 hm
  rw [cstr_noNul hz, if_pos (by simp)]
  congr 1
  have e : (b ++ 10 :: l).reverse = l.reverse ++ 10 :: b.reverse := by simp
  rw [e, List.idxOf_append_of_notMem (by simpa using h), List.idxOf_cons_self]
  simp only [List.length_append, List.length_cons, List.length_reverse]
  omega

/-- a raw line, with whatever ends it, that `go_back_one_req` can step over -/
structure Steppable (r : List Nat) : Prop where
  two : 2 ≤ r.length
  short : r.length ≤ 1023
  noLF : 10 ∉ r.dropLast
  noNul : 0 ∉ r

/-- text before a line: nothing after the start, or a line -/
def LineStart (start : Nat) (a : List Nat) : Prop := a.length = start ∨ (start < a.length ∧ a.getLast? = some 10)

theorem goBack_line {rd : TReader} {a r : List Nat} (hp : rd.bytes.take rd.pos = a ++ r) (hlen : rd.pos = a.length + r.length) (hs : LineStart rd.start a) (hr : Steppable r) (h0 : 0 ∉ a) :
    goBackOne rd = .ok (0, { rd with pos := a.length }) := by
  have hpos : rd.pos ≤ rd.bytes.length := by
    have h1 : (rd.bytes.take rd.pos).length = rd.pos := by rw [hp, List.length_append, hlen]
    rw [List.length_take] at h1
    omega
  have h2 := hr.two
  have h3 := hr.short
  have hsa : rd.start ≤ a.length := by rcases hs with h | h <;> omega
  unfold goBackOne
  rw [if_neg (by omega)]
  generalize hseek : min 1024 (rd.pos - rd.start - 0) = seek
  have hseek2 : r.length ≤ seek ∧ seek ≤ rd.pos := by omega
  have hgt : rd.start < a.length → r.length + 1 ≤ seek := by omega
  have hp0 : seekCur rd.pos (-(seek : Int)) = rd.pos - seek := by
    unfold seekCur
    rw [if_neg (by omega)]
    omega
  generalize ha1 : a.take (rd.pos - seek) = a1
  generalize ha2 : a.drop (rd.pos - seek) = a2
  have ha : a = a1 ++ a2 := by rw [← ha1, ← ha2, List.take_append_drop]
  have hl1 : a1.length = rd.pos - seek := by rw [← ha1, List.length_take]; omega
  have hal : a.length = a1.length + a2.length := by rw [ha, List.length_append]
  have hdata : (rd.bytes.drop (rd.pos - seek)).take (seek - 1) = a2 ++ r.dropLast := by
    have e1 : (rd.bytes.drop (rd.pos - seek)).take seek = a2 ++ r := by
      have : rd.bytes.take rd.pos = rd.bytes.take ((rd.pos - seek) + seek) := by congr 1; omega
      rw [← List.take_append_drop (rd.pos - seek) rd.bytes, List.take_append] at hp
      have e2 : (rd.bytes.take (rd.pos - seek)).length = rd.pos - seek := by rw [List.length_take]; omega
      rw [e2, List.take_of_length_le (by rw [e2]; omega), ha, List.append_assoc] at hp
      have := (List.append_inj hp (by rw [e2, hl1])).2
      rw [← this]
      congr 1
      omega
    have e3 : (rd.bytes.drop (rd.pos - seek)).take (seek - 1) = ((rd.bytes.drop (rd.pos - seek)).take seek).take (seek - 1) := by
      rw [List.take_take]
      congr 1
      omega
    rw [e3, e1]
    have e4 : (a2 ++ r).length = seek := by rw [List.length_append]; omega
    have e5 : (a2 ++ r).dropLast = a2 ++ r.dropLast := List.dropLast_append_of_ne_nil (by intro h; rw [h] at h2; simp at h2)
    rw [← e5, List.dropLast_eq_take, e4]
  have hdl : (a2 ++ r.dropLast).length = seek - 1 := by rw [List.length_append, List.length_dropLast]; omega
  have htake : (a2 ++ r.dropLast).take ((a2 ++ r.dropLast).length - 1) = a2 ++ r.dropLast.dropLast := by
    rw [← List.dropLast_eq_take]
    refine List.dropLast_append_of_ne_nil ?_
    intro h
    have : r.dropLast.length = 0 := by rw [h]; rfl
    rw [List.length_dropLast] at this
    omega
  have hsub : ∀ c, c ∈ r.dropLast.dropLast → c ∈ r.dropLast := fun c hc => List.dropLast_subset _ hc
  have hround : backRound rd.bytes rd.start (rd.pos - rd.start) 0 rd.pos = .ok (.ok (0, a.length)) := by
    unfold backRound
    simp only
    rw [hseek, hp0, hdata, if_neg (by omega), htake]
    rcases hs with hs | ⟨hs, hg⟩
    · have hnil : a2 = [] := by
        have : a2.length = 0 := by omega
        exact List.length_eq_zero_iff.1 this
      rw [hnil, List.nil_append, strrchr_none (fun hm => hr.noLF (hsub _ hm))]
      simp only
      rw [if_pos (by omega), hs]
    · have hne : a2 ≠ [] := by
        rintro rfl
        simp only [List.length_nil] at hal
        have := hgt hs
        omega
      have hg2 : a2.getLast? = some 10 := by
        rw [ha, List.getLast?_append_of_ne_nil _ hne] at hg
        exact hg
      obtain ⟨b, rfl⟩ : ∃ b, a2 = b ++ [10] := by
        refine ⟨a2.dropLast, ?_⟩
        rw [List.getLast?_eq_some_getLast hne, Option.some.injEq] at hg2
        rw [← hg2, List.dropLast_concat_getLast]
      have e : b ++ [10] ++ r.dropLast.dropLast = b ++ 10 :: r.dropLast.dropLast := by simp
      have hb0 : 0 ∉ b := fun hm => h0 (by rw [ha]; simp [hm])
      have hl0 : 0 ∉ r.dropLast.dropLast := fun hm => hr.noNul (List.dropLast_subset _ (hsub _ hm))
      rw [e, strrchr_some hb0 hl0 (fun hm => hr.noLF (hsub _ hm))]
      simp only
      rw [hdl]
      congr 3
      simp only [List.length_append, List.length_cons, List.length_nil] at hal
      unfold seekCur
      rw [if_neg (by omega)]
      omega
  unfold backLoop
  rw [hround, Res.bind_ok]
  rfl

theorem goBack_start {rd : TReader} (h : rd.pos ≤ rd.start) : goBackOne rd = .ok (1, rd) := by
  unfold goBackOne
  rw [if_pos h]

/-! ## The end of the file -/

theorem isSpace_iff (c : Nat) : isSpace c = true ↔ c = 32 ∨ (9 ≤ c ∧ c ≤ 13) := by simp [isSpace]

theorem backSpaces_ok {bytes p : List Nat} {c : Nat} (hc : isSpace c = false) :
    ∀ (n : Nat) (w : List Nat), w.length = n → (∀ x ∈ w, isSpace x = true) → (∃ rest, bytes = p ++ c :: w ++ rest) → ∀ (fuel : Nat), n < fuel →
      ∀ x, ((c :: w).getLast? = some x) → backSpaces bytes fuel (p.length + 1 + w.length) x = .ok (p.length + 1) := by
  intro n
  induction n with
  | zero =>
    intro w hw hsp hb fuel hf x hx
    have : w = [] := List.length_eq_zero_iff.1 hw
    subst this
    simp only [List.getLast?_singleton, Option.some.injEq] at hx
    subst hx
    cases fuel with
    | zero => omega
    | succ fuel =>
      unfold backSpaces
      rw [hc]
      rfl
  | succ n ih =>
    intro w hw hsp hb fuel hf x hx
    have hne : w ≠ [] := by rintro rfl; simp at hw
    obtain ⟨w', y, rfl⟩ : ∃ w' y, w = w' ++ [y] := ⟨w.dropLast, w.getLast hne, (List.dropLast_concat_getLast hne).symm⟩
    have hx' : x = y := by
      rw [← List.cons_append, List.getLast?_concat, Option.some.injEq] at hx
      exact hx.symm
    subst hx'
    cases fuel with
    | zero => omega
    | succ fuel =>
      obtain ⟨rest, rfl⟩ := hb
      simp only [List.length_append, List.length_cons, List.length_nil] at hw
      unfold backSpaces
      rw [if_pos (hsp x (by simp))]
      have hsk : seekCur (p.length + 1 + (w' ++ [x]).length) (-2) = p.length + w'.length := by
        unfold seekCur
        simp only [List.length_append, List.length_cons, List.length_nil]
        rw [if_neg (by omega)]
        omega
      have hne' : (c :: w') ≠ [] := by simp
      have hhd : (List.drop (p.length + w'.length) (p ++ c :: (w' ++ [x]) ++ rest)).head? = (c :: w').getLast? := by
        have e : p ++ c :: (w' ++ [x]) ++ rest = (p ++ (c :: w').dropLast) ++ ((c :: w').getLast hne' :: ([x] ++ rest)) := by
          have : (c :: w').dropLast ++ [(c :: w').getLast hne'] = c :: w' := List.dropLast_concat_getLast hne'
          calc p ++ c :: (w' ++ [x]) ++ rest = p ++ (c :: w') ++ ([x] ++ rest) := by simp
            _ = p ++ ((c :: w').dropLast ++ [(c :: w').getLast hne']) ++ ([x] ++ rest) := by rw [this]
            _ = _ := by simp only [List.append_assoc, List.cons_append, List.nil_append]
        rw [e, List.getLast?_eq_some_getLast hne', List.drop_left' (by simp)]
        rfl
      rw [hsk, hhd, List.getLast?_eq_some_getLast hne']
      simp only
      have := ih w' (by omega) (fun z hz => hsp z (by simp [hz])) ⟨[x] ++ rest, by simp⟩ fuel (by omega) ((c :: w').getLast hne') (List.getLast?_eq_some_getLast hne')
      have e2 : p.length + w'.length + 1 = p.length + 1 + w'.length := by omega
      rw [e2]
      exact this

theorem setPos_end {rd : TReader} {p w : List Nat} {c : Nat} (hb : rd.bytes = p ++ c :: w) (hc : isSpace c = false) (hw : ∀ x ∈ w, isSpace x = true) :
    setPos rd rd.bytes.length = .ok { rd with pos := p.length + 1 } := by
  unfold setPos
  rw [if_pos rfl]
  have hlen : rd.bytes.length = p.length + 1 + w.length := by rw [hb, List.length_append, List.length_cons]; omega
  have hsk : seekCur rd.bytes.length (-1) = p.length + w.length := by
    unfold seekCur
    rw [if_neg (by omega)]
    omega
  have hne' : (c :: w) ≠ [] := by simp
  have hhd : (rd.bytes.drop (p.length + w.length)).head? = (c :: w).getLast? := by
    have e : rd.bytes = (p ++ (c :: w).dropLast) ++ [(c :: w).getLast hne'] := by
      rw [hb, List.append_assoc, List.dropLast_concat_getLast hne']
    rw [e, List.getLast?_eq_some_getLast hne', List.drop_left' (by simp)]
    rfl
  rw [hsk, hhd, List.getLast?_eq_some_getLast hne']
  simp only
  have e2 : p.length + w.length + 1 = p.length + 1 + w.length := by omega
  rw [e2, backSpaces_ok hc w.length w rfl hw ⟨[], by rw [hb]; simp⟩ (2 * rd.bytes.length + 2) (by omega) _ (List.getLast?_eq_some_getLast hne'), Res.bind_ok]

/-! ## Skipping -/

theorem skip_lines (ls : List (List Nat)) (hls : ∀ l ∈ ls, 10 ∉ l) : ∀ (rd : TReader) (rest : List Nat), rd.bytes.drop rd.pos = ls.flatMap (fun l => l ++ [10]) ++ rest →
    skipN rd ls.length = (ls.length, { rd with pos := rd.pos + (ls.flatMap (fun l => l ++ [10])).length }) := by
  induction ls with
  | nil => intro rd rest _; rfl
  | cons l ls ih =>
    intro rd rest h
    have hd : rd.bytes.drop rd.pos = (l ++ [10]) ++ (ls.flatMap (fun l => l ++ [10]) ++ rest) := by rw [h]; simp
    have hg := getline_line (by rw [hd]; simp : rd.bytes.drop rd.pos = l ++ 10 :: (ls.flatMap (fun l => l ++ [10]) ++ rest)) (hls l (by simp))
    rw [List.length_cons]
    unfold skipN
    rw [hg]
    simp only
    have := ih (fun x hx => hls x (List.mem_cons_of_mem _ hx)) { rd with pos := rd.pos + (l ++ [10]).length } rest (drop_after hd)
    rw [this]
    simp only [List.flatMap_cons, List.length_append, Prod.mk.injEq, true_and]
    congr 1
    omega

end Verif.Text
