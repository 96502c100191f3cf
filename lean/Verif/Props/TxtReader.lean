import Verif.Proof.TxtReader
/-!
# C49: reading plain text traces
-/

namespace Verif.Props.TxtReader
open Verif Verif.CLib Verif.Text Verif.Spec.Csv Verif.Spec.Text
open Verif.Reader (Request newRequest)

theorem setup_at {bytes : List Nat} {p : Params} (hs : p.start = 0) (hne : bytes ≠ []) : TAt p (setupTxt bytes p) bytes :=
  ⟨rfl, ⟨rfl, rfl⟩, rfl, by show p.start < bytes.length; rw [hs]; exact List.length_pos_of_ne_nil hne, rfl⟩

theorem txt_nil {bytes : List Nat} {ts : List (List Nat)} (h : TxtFile ts bytes) (he : bytes = []) : ts = [] := by
  induction h with
  | nil => rfl
  | last h _ => exact absurd he h
  | cons _ _ _ _ => simp at he
  | empty _ _ => cases he

theorem readAll_empty {hash : List Nat → Nat} {rd : TReader} {q : Request} {n : Nat} (hn : 0 < n) (h : rd.bytes = []) : readAll hash n rd q = .ok ([], rd) := by
  cases n with
  | zero => omega
  | succ n =>
    have e : readOne hash rd q = .ok (1, rd, { q with valid := false }) := by
      unfold readOne readWith
      rw [if_pos (by rw [h]; exact Nat.zero_le _)]
    unfold readAll
    rw [e, Res.bind_ok, if_pos (show (1 : Int) ≠ 0 by decide)]

theorem empty_sees {hash : List Nat → Nat} {p : Params} {n : Nat} (hn : 0 < n) : delivered hash n (setupTxt [] p) = .ok [] := by
  unfold delivered
  rw [readAll_empty hn rfl]
  rfl

/-- **C49** a text file of decimal numbers below 2^64, one per line, perhaps with carriage returns, with empty lines in between, with or without a final newline: the objects are read one by
one, in order, with time 0 and size 1, up to the cap -/
theorem C49_numbers_partial (hash : List Nat → Nat) (p : Params) (hs : p.start = 0) (hp : p.idIsNum = true) (bytes : List Nat) (ts : List (List Nat)) (ns : List Nat) (hT : TxtFile ts bytes)
    (hF : List.Forall₂ NumLine ts ns) (n : Nat) (hn : ts.length < n) : delivered hash n (setupTxt bytes p) = .ok ((upTo p ns).map (fun i : Nat => ((0 : Int), (i : Int), (1 : Int)))) := by
  by_cases hne : bytes = []
  · subst hne
    have := txt_nil hT rfl
    subst this
    cases hF
    rw [empty_sees (by omega)]
    unfold upTo
    split <;> simp
  · obtain ⟨rs, rd', h1, h2, _⟩ := txt_num (hash := hash) hp hT hF hn (setup_at hs hne) (q := newRequest) ⟨rfl, rfl⟩ rfl
    unfold delivered
    rw [h1, Res.bind_ok, h2]

/-- two carriage returns, an empty line, no final newline -/
example : TxtFile [txt "12\r", txt "7\r", txt "12"] (txt "12\r\n\n7\r\n12") ∧ List.Forall₂ NumLine [txt "12\r", txt "7\r", txt "12"] [12, 7, 12] := by
  have e : txt "12\r\n\n7\r\n12" = txt "12\r" ++ 10 :: (10 :: (txt "7\r" ++ 10 :: txt "12")) := by decide +kernel
  rw [e]
  refine ⟨.cons (by decide +kernel) (by decide +kernel) (.empty (.cons (by decide +kernel) (by decide +kernel) (.last (by decide +kernel) (by decide +kernel)))), .cons ⟨.inr ?_, by decide⟩ (.cons ⟨.inr ?_, by decide⟩ (.cons ⟨.inl ?_, by decide⟩ .nil))⟩ <;> decide +kernel

/-- **C49** round trip: a list of ids below 2^64, written in decimal, one per line -/
theorem C49_written_partial (hash : List Nat → Nat) (p : Params) (hs : p.start = 0) (hp : p.idIsNum = true) (ns : List Nat) (hb : ∀ i ∈ ns, i < 2 ^ 64) :
    delivered hash (ns.length + 1) (setupTxt (ns.flatMap (fun i => dec i ++ [10])) p) = .ok ((upTo p ns).map (fun i : Nat => ((0 : Int), (i : Int), (1 : Int)))) := by
  have hT : TxtFile (ns.map dec) (ns.flatMap (fun i => dec i ++ [10])) := by
    clear hb
    induction ns with
    | nil => exact .nil
    | cons i ns ih =>
      rw [List.flatMap_cons, List.map_cons, List.append_assoc]
      refine .cons (dec_ne_nil i) ?_ ih
      intro h
      have := dec_digit i 10 h
      unfold Digit at this
      omega
  have hF : List.Forall₂ NumLine (ns.map dec) ns := by
    clear hT
    induction ns with
    | nil => exact .nil
    | cons i ns ih => exact .cons ⟨.inl rfl, hb i (by simp)⟩ (ih (fun x hx => hb x (List.mem_cons_of_mem _ hx)))
  exact C49_numbers_partial hash p hs hp _ _ ns hT hF _ (by rw [List.length_map]; omega)

example : ∀ i ∈ [0, 18446744073709551615], i < 2 ^ 64 := by decide

/-- **C49** a text file of names: equal lines are the same object, different lines are different objects -/
theorem C49_names_partial (hash : List Nat → Nat) (p : Params) (hs : p.start = 0) (hp : p.idIsNum = false) (bytes : List Nat) (ts : List (List Nat)) (hT : TxtFile ts bytes)
    (hz : ∀ t ∈ ts, 0 ∉ t) (n : Nat) (hn : ts.length < n) :
    ∃ idOf : List Nat → Nat, delivered hash n (setupTxt bytes p) = .ok ((upTo p ts).map (fun t => ((0 : Int), (idOf t : Int), (1 : Int)))) ∧ ∀ s ∈ upTo p ts, ∀ t ∈ upTo p ts, idOf s = idOf t → s = t := by
  by_cases hne : bytes = []
  · subst hne
    have := txt_nil hT rfl
    subst this
    refine ⟨fun _ => 0, ?_, ?_⟩
    · rw [empty_sees (by omega)]
      unfold upTo
      split <;> simp
    · intro s hs
      unfold upTo at hs
      split at hs <;> simp at hs
  · obtain ⟨rs, rd', h1, h2, _, h4, h5, h6⟩ := txt_str (hash := hash) hp hT hz hn (setup_at hs hne) (q := newRequest) ⟨rfl, rfl⟩ rfl List.nodup_nil
    refine ⟨fun t => rd'.quarks.idxOf t + 1, ?_, ?_⟩
    · unfold delivered
      rw [h1, Res.bind_ok, h2]
    · intro s hs t ht he
      have he : rd'.quarks.idxOf s = rd'.quarks.idxOf t := Nat.succ.inj he
      exact (List.idxOf_inj (h6 s hs)).1 he

example : TxtFile [txt "a b", txt "c", txt "a b"] (txt "a b\nc\na b\n") ∧ delivered (fun _ => 0) 100 (setupTxt (txt "a b\nc\na b\n") { idIsNum := false }) = .ok [(0, 1, 1), (0, 2, 1), (0, 1, 1)] := by
  have e : txt "a b\nc\na b\n" = txt "a b" ++ 10 :: (txt "c" ++ 10 :: (txt "a b" ++ 10 :: [])) := by decide +kernel
  refine ⟨?_, by decide +kernel⟩
  rw [e]
  exact .cons (by decide +kernel) (by decide +kernel) (.cons (by decide +kernel) (by decide +kernel) (.cons (by decide +kernel) (by decide +kernel) .nil))

theorem reset_at {rd0 rd : TReader} {bytes : List Nat} {p : Params} (h0 : rd0 = setupTxt bytes p) (hs : p.start = 0) (hne : bytes ≠ []) (h : TSteady rd0 rd) :
    TAt p (reset rd) bytes ∧ (reset rd).nRead = 0 ∧ (reset rd).quarks = rd.quarks := by
  obtain ⟨pos, n, qs, rfl, h1, h2⟩ := h
  subst h0
  exact ⟨⟨rfl, ⟨rfl, rfl⟩, rfl, by show p.start < bytes.length; rw [hs]; exact List.length_pos_of_ne_nil hne, rfl⟩, rfl, rfl⟩

/-- **C49** names keep their ids: after reading the file to the end, then reading, skipping, stepping back, seeking and resetting in any way, a reset and another pass deliver the same requests -/
theorem C49_again_partial (hash : List Nat → Nat) (p : Params) (hs : p.start = 0) (hp : p.idIsNum = false) (bytes : List Nat) (ts : List (List Nat)) (hT : TxtFile ts bytes)
    (hz : ∀ t ∈ ts, 0 ∉ t) (n : Nat) (hn : ts.length < n) (rs : List Request) (rd1 rd2 : TReader) (h1 : readAll hash n (setupTxt bytes p) newRequest = .ok (rs, rd1)) (h2 : Used hash rd1 rd2) :
    delivered hash n (reset rd2) = .ok (rs.map shown) := by
  have hne' : ∀ {rd0 : TReader}, rd0 = setupTxt bytes p → Used hash rd0 rd2 := by
    rintro _ rfl
    exact used_trans (readAll_used n h1) h2
  by_cases hne : bytes = []
  · subst hne
    rw [readAll_empty (by omega) rfl] at h1
    simp only [Except.ok.injEq, Prod.mk.injEq] at h1
    rw [← h1.1]
    obtain ⟨pos, m, qs, e, _, _⟩ := used_txt rfl rfl List.nodup_nil (hne' rfl)
    have e2 : reset rd2 = { setupTxt [] p with quarks := qs } := by rw [e]; rfl
    rw [e2]
    unfold delivered
    rw [readAll_empty (by omega) rfl]
    rfl
  · obtain ⟨rs', rd', e1, e2, _, e4, e5, e6⟩ := txt_str (hash := hash) hp hT hz hn (setup_at hs hne) (q := newRequest) ⟨rfl, rfl⟩ rfl List.nodup_nil
    rw [e1] at h1
    simp only [Except.ok.injEq, Prod.mk.injEq] at h1
    obtain ⟨rfl, rfl⟩ := h1
    obtain ⟨_, _, _, f1, f2, f3⟩ := used_txt (rd0 := setupTxt bytes p) rfl rfl List.nodup_nil (readAll_used n e1)
    have hst := used_txt (rd0 := setupTxt bytes p) rfl rfl List.nodup_nil (hne' rfl)
    have hq : rd'.quarks <+: rd2.quarks := by
      obtain ⟨_, _, qs, g1, g2, g3⟩ := used_txt (by rw [f1]; rfl) (by rw [f1]; rfl) e4 h2
      rw [g1]
      exact g2
    obtain ⟨a1, a2, a3⟩ := reset_at rfl hs hne hst
    have hnd : (reset rd2).quarks.Nodup := by
      rw [a3]
      obtain ⟨_, _, qs, g1, g2, g3⟩ := hst
      rw [g1]
      exact g3
    obtain ⟨rs2, rd3, b1, b2, _, b4, b5, b6⟩ := txt_str (hash := hash) hp hT hz hn a1 (q := newRequest) ⟨rfl, rfl⟩ a2 hnd
    unfold delivered
    rw [b1, Res.bind_ok, b2, e2]
    congr 1
    apply List.map_congr_left
    intro t ht
    rw [idxOf_prefix (hq.trans (a3 ▸ b5)) (e6 t ht)]

example : Used (fun _ => 0) (setupTxt (txt "a\nb\na\n") { idIsNum := false }) (skipN (reset (setupTxt (txt "a\nb\na\n") { idIsNum := false })) 2).2 := .skip 2 (.reset .refl)

/-- **C49** numbers: after any use of the reader, a reset and another pass deliver all requests -/
theorem C49_reset_partial (hash : List Nat → Nat) (p : Params) (hs : p.start = 0) (hp : p.idIsNum = true) (bytes : List Nat) (ts : List (List Nat)) (ns : List Nat) (hT : TxtFile ts bytes) (hne : bytes ≠ [])
    (hF : List.Forall₂ NumLine ts ns) (n : Nat) (hn : ts.length < n) (rd : TReader) (h : Used hash (setupTxt bytes p) rd) :
    delivered hash n (reset rd) = .ok ((upTo p ns).map (fun i : Nat => ((0 : Int), (i : Int), (1 : Int)))) := by
  obtain ⟨a1, a2, a3⟩ := reset_at rfl hs hne (used_txt (rd0 := setupTxt bytes p) rfl rfl List.nodup_nil h)
  obtain ⟨rs, rd', h1, h2, _⟩ := txt_num (hash := hash) hp hT hF hn a1 (q := newRequest) ⟨rfl, rfl⟩ a2
  unfold delivered
  rw [h1, Res.bind_ok, h2]

/-! ## Where C49 fails -/

/-- **C49** fails for an empty line with a carriage return, and for a line that is not a number: the program aborts -/
theorem C49_blank_fails : delivered (fun _ => 0) 100 (setupTxt (txt "1\r\n\r\n2\r\n") {}) = .error .abort ∧ delivered (fun _ => 0) 100 (setupTxt (txt "1\nid\n2\n") {}) = .error .abort := by
  refine ⟨?_, ?_⟩ <;> decide +kernel

/-- **C49** fails for numbers with a leading zero, read as octal, and for numbers from 2^64 on, which all become the same object -/
theorem C49_number_fails : delivered (fun _ => 0) 100 (setupTxt (txt "020\n16\n18446744073709551616\n18446744073709551617\n") {}) =
    .ok [(0, 16, 1), (0, 16, 1), (0, 18446744073709551615, 1), (0, 18446744073709551615, 1)] := by decide +kernel

/-- **C49** fails for names in a file with carriage returns if the last line lacks its line end: the name is read with the carriage return, so that the last line is a different object -/
theorem C49_crName_fails : delivered (fun _ => 0) 100 (setupTxt (txt "a\r\nb\r\na") { idIsNum := false }) = .ok [(0, 1, 1), (0, 2, 1), (0, 3, 1)] := by decide +kernel

/-- **C49** fails for a cap of 1, which is no cap -/
theorem C49_capOne_fails : delivered (fun _ => 0) 100 (setupTxt (txt "1\n2\n") { cap := 1 }) = .ok [(0, 1, 1), (0, 2, 1)] := by decide +kernel

end Verif.Props.TxtReader
