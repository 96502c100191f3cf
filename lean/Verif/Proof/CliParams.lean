import Verif.Proof.CliArgs
/-!
# Trace types and trace parameters
-/

namespace Verif.Cli
open Verif Verif.CLib Verif.Spec.Csv Verif.Spec.Cli

/-! ## Values -/

theorem splitBase_dec (n : Nat) : splitBase (dec n) = some (if n = 0 then 8 else 10, dec n) := by
  have hp : digitPrefix 10 (dec n) = dec n := digitPrefix_self (dec_digit n)
  by_cases h0 : n = 0
  · subst h0
    have e : dec 0 = [48] := by unfold dec; rfl
    rw [e]
    rfl
  · have hh := dec_head (Nat.pos_of_ne_zero h0)
    rw [if_neg h0]
    unfold splitBase
    split
    · rename_i heq; rw [heq] at hh; simp at hh
    · rename_i heq; rw [heq] at hh; simp at hh
    · rw [hp, if_neg (dec_ne_nil n)]

theorem splitEnd_dec (n : Nat) : splitEnd (dec n) = some (n, (dec n).length) := by
  unfold splitEnd
  rw [splitBase_dec]
  by_cases h0 : n = 0
  · subst h0
    have e : dec 0 = [48] := by unfold dec; rfl
    rw [e]
    rfl
  · simp only [if_neg h0, digitsVal_eq (dec_digit n), number_dec, show ¬ (10 : Nat) = 16 from by decide, if_false, Nat.zero_add]

theorem strtol0_dec {n : Nat} (h : n < 2 ^ 31) : strtol0 (dec n) = ((n : Int), []) := by
  have hd := dropWhile_dec n []
  rw [List.append_nil] at hd
  unfold strtol0
  rw [hd]
  split
  · rename_i heq
    have := (dec_digit n 45 (by rw [heq]; simp)).1
    omega
  · rename_i heq
    have := (dec_digit n 43 (by rw [heq]; simp)).1
    omega
  · rw [splitEnd_dec]
    simp only [List.drop_length, Prod.mk.injEq, and_true]
    omega

theorem strtol0_minus {n : Nat} (h : n ≤ 2 ^ 31) : strtol0 (45 :: dec n) = (-(n : Int), []) := by
  unfold strtol0
  rw [List.dropWhile_cons_of_neg (by decide)]
  simp only [splitEnd_dec, List.drop_length, Prod.mk.injEq, and_true]
  omega

theorem toInt32_small {z : Int} (h1 : -2147483648 ≤ z) (h2 : z < 2147483648) : toInt32 z = z := by
  unfold toInt32
  omega

theorem column_spec {n : Int} {v : Str} (h : ColumnText n v) : column v = .ok n := by
  cases h with
  | @plus n hn =>
    unfold column
    rw [strtol0_dec hn, if_neg (by simp), toInt32_small (by omega) (by omega)]
  | @minus n hn =>
    unfold column
    rw [strtol0_minus hn, if_neg (by simp), toInt32_small (by omega) (by omega)]

theorem isTrue_spec {b : Bool} {v : Str} (h : BoolText b v) : isTrue v = .ok b := by
  obtain ⟨t, ht, hc⟩ := h
  have : isTrue v = isTrue (lit t) := by
    unfold isTrue
    simp only [ieq_anyCase hc]
  rw [this]
  cases b
  · simp only [Bool.false_eq_true, if_false, List.mem_cons, List.mem_nil_iff, or_false] at ht
    rcases ht with rfl | rfl | rfl | rfl <;> decide +kernel
  · simp only [if_true, List.mem_cons, List.mem_nil_iff, or_false] at ht
    rcases ht with rfl | rfl | rfl | rfl <;> decide +kernel

theorem delimOf_spec {c : Nat} {v : Str} (h : DelimiterText c v) : delimOf v = .ok c := by
  cases h with
  | char h1 h2 =>
    unfold delimOf
    split
    · rename_i heq; simp at heq
    · rename_i heq; simp at heq; omega
    · rename_i heq; simp at heq
    · rename_i heq; simp at heq
    · rename_i heq _; simp_all
  | comma => rfl
  | escapedComma => rfl
  | tab => rfl

/-! ## One setting -/

theorem setParam_name {name : String} {k : Str} (h : NameText name k) (hl : replaceChar (lit name) 95 45 = lit name) (p : RParams) (v : Option Str) :
    setParam p k v = setParam p (lit name) v := by
  have e : ∀ n : String, ieq (replaceChar k 95 45) (lit n) = ieq (replaceChar (lit name) 95 45) (lit n) := by
    intro n
    rw [hl]
    exact ieq_anyCase h _
  unfold setParam
  simp only [e]

theorem setParam_spec {s : Setting} {name : String} {k v : Str} (hn : name ∈ s.names) (hk : NameText name k) (hv : ValueText s v) (p : RParams) :
    setParam p k (some v) = .ok (s.apply p) := by
  cases s with
  | time n =>
    have hc := column_spec (show ColumnText n v from hv)
    simp only [Setting.names, List.mem_cons, List.mem_nil_iff, or_false] at hn
    rcases hn with rfl | rfl
    · rw [setParam_name hk (by decide)]
      show (column v >>= _) = _
      rw [hc]; rfl
    · rw [setParam_name hk (by decide)]
      show (column v >>= _) = _
      rw [hc]; rfl
  | id n =>
    have hc := column_spec (show ColumnText n v from hv)
    simp only [Setting.names, List.mem_cons, List.mem_nil_iff, or_false] at hn
    rcases hn with rfl | rfl
    · rw [setParam_name hk (by decide)]
      show (column v >>= _) = _
      rw [hc]; rfl
    · rw [setParam_name hk (by decide)]
      show (column v >>= _) = _
      rw [hc]; rfl
  | size n =>
    have hc := column_spec (show ColumnText n v from hv)
    simp only [Setting.names, List.mem_cons, List.mem_nil_iff, or_false] at hn
    rcases hn with rfl | rfl | rfl | rfl
    all_goals
      rw [setParam_name hk (by decide)]
      show (column v >>= _) = _
      rw [hc]; rfl
  | cnt n =>
    have hc := column_spec (show ColumnText n v from hv)
    simp only [Setting.names, List.mem_cons, List.mem_nil_iff, or_false] at hn
    rcases hn with rfl | rfl
    all_goals
      rw [setParam_name hk (by decide)]
      show (column v >>= _) = _
      rw [hc]; rfl
  | next n =>
    have hc := column_spec (show ColumnText n v from hv)
    simp only [Setting.names, List.mem_cons, List.mem_nil_iff, or_false] at hn
    rcases hn with rfl | rfl
    all_goals
      rw [setParam_name hk (by decide)]
      show (column v >>= _) = _
      rw [hc]; rfl
  | idIsNum b =>
    have hc := isTrue_spec (show BoolText b v from hv)
    simp only [Setting.names, List.mem_cons, List.mem_nil_iff, or_false] at hn
    subst hn
    rw [setParam_name hk (by decide)]
    show (isTrue v >>= _) = _
    rw [hc]; rfl
  | header b =>
    have hc := isTrue_spec (show BoolText b v from hv)
    simp only [Setting.names, List.mem_cons, List.mem_nil_iff, or_false] at hn
    rcases hn with rfl | rfl
    all_goals
      rw [setParam_name hk (by decide)]
      show (isTrue v >>= _) = _
      rw [hc]; rfl
  | format f =>
    obtain ⟨rfl, _⟩ := (show v = f ∧ 44 ∉ f from hv)
    simp only [Setting.names, List.mem_cons, List.mem_nil_iff, or_false] at hn
    subst hn
    rw [setParam_name hk (by decide)]
    rfl
  | delimiter c =>
    have hc := delimOf_spec (show DelimiterText c v from hv)
    simp only [Setting.names, List.mem_cons, List.mem_nil_iff, or_false] at hn
    subst hn
    rw [setParam_name hk (by decide)]
    show (delimOf v >>= _) = _
    rw [hc]; rfl

/-! ## The text of a setting -/

theorem lit_names {s : Setting} {name : String} (hn : name ∈ s.names) :
    (∀ c ∈ lit name, c = 45 ∨ (97 ≤ c ∧ c ≤ 122)) ∧ ∃ a r, lit name = a :: r ∧ 97 ≤ a ∧ a ≤ 122 := by
  have key : ∀ n ∈ (["time-col", "time-field", "obj-id-col", "obj-id-field", "obj-size-col", "obj-size-field", "size-col", "size-field", "cnt-col", "cnt-field",
      "next-access-col", "next-access-field", "obj-id-is-num", "header", "has-header", "format", "delimiter"] : List String),
      (∀ c ∈ lit n, c = 45 ∨ (97 ≤ c ∧ c ≤ 122)) ∧ (lit n).head?.any (fun a => decide (97 ≤ a ∧ a ≤ 122)) = true := by decide +kernel
  have hm : name ∈ (["time-col", "time-field", "obj-id-col", "obj-id-field", "obj-size-col", "obj-size-field", "size-col", "size-field", "cnt-col", "cnt-field",
      "next-access-col", "next-access-field", "obj-id-is-num", "header", "has-header", "format", "delimiter"] : List String) := by
    cases s <;> simp only [Setting.names, List.mem_cons, List.mem_nil_iff, or_false] at hn <;> simp only [List.mem_cons, List.mem_nil_iff, or_false] <;> tauto
  obtain ⟨h1, h2⟩ := key name hm
  refine ⟨h1, ?_⟩
  cases hl : lit name with
  | nil => rw [hl] at h2; simp at h2
  | cons a r =>
    rw [hl] at h2
    simp at h2
    exact ⟨a, r, rfl, h2.1, h2.2⟩

/-- a name contains no equals sign, and does not begin with a blank or a comma -/
theorem name_plain {s : Setting} {name : String} {k : Str} (hn : name ∈ s.names) (hk : NameText name k) :
    61 ∉ k ∧ ∃ a r, k = a :: r ∧ a ≠ 32 ∧ a ≠ 44 := by
  obtain ⟨h1, b, r, h2, h3, h4⟩ := lit_names hn
  have hmap : (k.map (fun c => if c = 95 then 45 else c)).map lower = (lit name).map lower := hk
  have hmem : ∀ c ∈ k, lower (if c = 95 then 45 else c) ∈ (lit name).map lower := by
    intro c hc
    rw [← hmap]
    exact List.mem_map_of_mem (List.mem_map_of_mem (f := fun c => if c = 95 then 45 else c) hc)
  constructor
  · intro hc
    have := hmem 61 hc
    obtain ⟨d, hd, e⟩ := List.mem_map.1 this
    have hd' := h1 d hd
    unfold lower at e
    simp at e
    split at e <;> omega
  · cases k with
    | nil => rw [h2] at hmap; simp at hmap
    | cons a t =>
      refine ⟨a, t, rfl, ?_⟩
      rw [h2] at hmap
      simp only [List.map_cons, List.cons.injEq] at hmap
      have h5 := hmap.1
      unfold lower at h5
      constructor
      · rintro rfl
        simp at h5
        split at h5 <;> omega
      · rintro rfl
        simp at h5
        split at h5 <;> omega

theorem value_plain {s : Setting} {v : Str} (hv : ValueText s v) : 44 ∉ v := by
  have hcol : ∀ n : Int, ColumnText n v → 44 ∉ v := by
    intro n h hm
    cases h with
    | @plus n _ => have := (dec_digit n 44 hm).1; omega
    | @minus n _ =>
      rcases List.mem_cons.1 hm with h | h
      · omega
      · have := (dec_digit n 44 h).1; omega
  have hbool : ∀ b, BoolText b v → 44 ∉ v := by
    rintro b ⟨t, ht, hc⟩ hm
    have h1 : lower 44 ∈ (lit t).map lower := by rw [← hc]; exact List.mem_map_of_mem hm
    have h2 : ∀ t ∈ (["true", "1", "yes", "y", "false", "0", "no", "n"] : List String), 44 ∉ (lit t).map lower := by decide +kernel
    refine h2 t ?_ h1
    cases b <;> simp at ht <;> simp <;> tauto
  cases s with
  | time n => exact hcol n hv
  | id n => exact hcol n hv
  | size n => exact hcol n hv
  | cnt n => exact hcol n hv
  | next n => exact hcol n hv
  | idIsNum b => exact hbool b hv
  | header b => exact hbool b hv
  | format f =>
    obtain ⟨rfl, h⟩ := (show v = f ∧ 44 ∉ f from hv)
    exact h
  | delimiter c =>
    cases (show DelimiterText c v from hv) with
    | char h1 h2 => simp; omega
    | comma => simp
    | escapedComma => simp
    | tab => simp

theorem settingText_head {s : Setting} {t : Str} (h : SettingText s t) : ∃ a r, t = a :: r ∧ a ≠ 32 ∧ a ≠ 44 := by
  cases h with
  | mk hn hk hv =>
    obtain ⟨_, a, r, rfl, h1, h2⟩ := name_plain hn hk
    exact ⟨a, _, rfl, h1, h2⟩

theorem paramText_head {l : List Setting} {t : Str} (h : ParamText l t) : t = [] ∨ ∃ a r, t = a :: r ∧ a ≠ 32 ∧ a ≠ 44 := by
  cases h with
  | nil => exact .inl rfl
  | last h => exact .inr (settingText_head h)
  | cons h _ _ =>
    obtain ⟨a, r, rfl, h1, h2⟩ := settingText_head h
    exact .inr ⟨a, _, rfl, h1, h2⟩

theorem dropWhile_gap {b r : Str} (hb : ∀ c ∈ b, c = 32 ∨ c = 44) (hr : r = [] ∨ ∃ a t, r = a :: t ∧ a ≠ 32 ∧ a ≠ 44) :
    (b ++ r).dropWhile (fun x => decide (x = 32 ∨ x = 44)) = r := by
  rw [List.dropWhile_append_of_pos (fun c hc => by simpa using hb c hc)]
  rcases hr with rfl | ⟨a, t, rfl, h1, h2⟩
  · rfl
  · rw [List.dropWhile_cons_of_neg (by simp; omega)]

theorem loop_step {s : Setting} {name : String} {k v rest : Str} {next : Option Str} (hn : name ∈ s.names) (hk : NameText name k) (hv : ValueText s v)
    (e : rest = v ∧ next = none ∨ ∃ u, rest = v ++ 44 :: u ∧ next = some (u.dropWhile (fun x => decide (x = 32 ∨ x = 44)))) (fuel : Nat) (p : RParams) :
    paramsLoop (fuel + 1) (some (k ++ 61 :: rest)) p = paramsLoop fuel next (s.apply p) := by
  obtain ⟨h61, a, r, rfl, _, _⟩ := name_plain hn hk
  have hsep : strsep 61 (a :: (r ++ 61 :: rest)) = (a :: r, some rest) := strsep_comma (t := a :: r) h61
  have hset := setParam_spec hn hk hv p
  have h44 := value_plain hv
  rw [List.cons_append]
  conv => lhs; unfold paramsLoop
  rw [hsep]
  rcases e with ⟨rfl, rfl⟩ | ⟨u, rfl, rfl⟩
  · simp only [Option.map_some, strsep_last h44, hset, Res.bind_ok]
    rfl
  · simp only [Option.map_some, strsep_comma h44, hset, Res.bind_ok]
    rfl

theorem paramsLoop_spec : ∀ (l : List Setting) (t : Str), ParamText l t → ∀ (fuel : Nat) (p : RParams), t.length < fuel →
    paramsLoop fuel (some t) p = .ok (l.foldl Setting.apply p) := by
  intro l t h
  induction h with
  | nil =>
    intro fuel p hf
    cases fuel with
    | zero => simp at hf
    | succ f => rfl
  | last h =>
    intro fuel p hf
    cases h with
    | mk hn hk hv =>
      cases fuel with
      | zero => simp at hf
      | succ f =>
        rw [loop_step hn hk hv (.inl ⟨rfl, rfl⟩)]
        cases f with
        | zero => simp at hf
        | succ f => rfl
  | cons h hg hr ih =>
    intro fuel p hf
    cases h with
    | mk hn hk hv =>
      cases hg with
      | mk hb =>
        cases fuel with
        | zero => simp at hf
        | succ f =>
          rw [List.append_assoc, List.cons_append, List.cons_append, loop_step hn hk hv (.inr ⟨_, rfl, rfl⟩), dropWhile_gap hb (paramText_head hr)]
          exact ih f _ (by simp at hf ⊢; omega)

/-! ## Trace types -/

theorem ieq_iff {a b : Str} : ieq a b = true ↔ AnyCase a b := by
  unfold ieq AnyCase
  exact beq_iff_eq

theorem typeOf_name {name : String} {k : Str} (h : AnyCase k (lit name)) (path : Str) : typeOf k path = typeOf (lit name) path := by
  have e : ∀ n : String, ieq k (lit n) = ieq (lit name) (lit n) := fun n => ieq_anyCase h _
  unfold typeOf
  simp only [e]

theorem typeOf_path {k : Str} (h : ieq k (lit "auto") = false) (p q : Str) : typeOf k p = typeOf k q := by
  unfold typeOf
  simp only [h]
  rfl

end Verif.Cli
