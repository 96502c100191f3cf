import Verif.Spec.Cli
import Verif.Proof.CLib
import Mathlib.Data.List.Forall2
import Mathlib.Data.List.TakeWhile
import Mathlib.Data.List.Infix
/-!
# Sizes and lists on the command line
-/

namespace Verif.Cli
open Verif Verif.CLib Verif.Spec.Csv Verif.Spec.Cli

theorem lower_digit {c : Nat} (h : Digit c) : lower c = c := by
  obtain ⟨h1, h2⟩ := h
  unfold lower
  rw [if_neg (by omega)]

theorem map_lower_digits {s : Str} (h : ∀ c ∈ s, Digit c) : s.map lower = s := by
  induction s with
  | nil => rfl
  | cons c s ih => rw [List.map_cons, lower_digit (h c (by simp)), ih (fun x hx => h x (List.mem_cons_of_mem _ hx))]

theorem occurs_digits {n ds v : Str} (hd : ∀ c ∈ ds, Digit c) {a : Nat} {m : Str} (hn : n = a :: m) (ha : 57 < a) : occurs n (ds ++ v) = occurs n v := by
  subst hn
  induction ds with
  | nil => rfl
  | cons c s ih =>
    have hc := hd c (by simp)
    rw [List.cons_append]
    conv => lhs; unfold occurs
    have : (a :: m).isPrefixOf (c :: (s ++ v)) = false := by
      unfold List.isPrefixOf
      have : (a == c) = false := by
        have := hc.2
        simp only [beq_eq_false_iff_ne, ne_eq]
        omega
      rw [this]
      rfl
    rw [this, Bool.false_or]
    exact ih (fun x hx => hd x (List.mem_cons_of_mem _ hx))

theorem lower_letter {x c : Nat} (h1 : 97 ≤ c) (h2 : c ≤ 122) : lower x = c ↔ (x = c ∨ x = c - 32) := by
  unfold lower
  split <;> omega

theorem endsIn_lower {c : Nat} (h1 : 97 ≤ c) (h2 : c ≤ 122) (s : Str) : endsIn c (c - 32) s = ((s.map lower).getLast? == some c) := by
  unfold endsIn
  rw [List.getLast?_map]
  cases s.getLast? with
  | none => rfl
  | some x =>
    have := lower_letter (x := x) h1 h2
    simp only [Option.map_some, Option.some_beq_some]
    rw [Bool.eq_iff_iff]
    simp [this]

/-- the text in small letters: digits and a unit -/
theorem mem_units {v : Str} {f : Nat} (h : (v, f) ∈ units) :
    (v = [] ∧ f = 1) ∨ (v = [107] ∧ f = 1024) ∨ (v = [107, 98] ∧ f = 1024) ∨ (v = [109] ∧ f = 1048576) ∨ (v = [109, 98] ∧ f = 1048576) ∨
    (v = [103] ∧ f = 1073741824) ∨ (v = [103, 98] ∧ f = 1073741824) ∨ (v = [116] ∧ f = 1099511627776) ∨ (v = [116, 98] ∧ f = 1099511627776) := by
  unfold units lit at h
  simpa using h

theorem head_unit {u v : Str} {f : Nat} (h : (v, f) ∈ units) (hu : AnyCase u v) (c : Nat) (hc : u.head? = some c) : ¬ digitVal c < 10 := by
  have hl : v.head? = some (lower c) := by
    have e : v.map lower = v := by
      rcases mem_units h with ⟨rfl, _⟩ | ⟨rfl, _⟩ | ⟨rfl, _⟩ | ⟨rfl, _⟩ | ⟨rfl, _⟩ | ⟨rfl, _⟩ | ⟨rfl, _⟩ | ⟨rfl, _⟩ | ⟨rfl, _⟩ <;> decide
    have : (u.map lower).head? = some (lower c) := by rw [List.head?_map, hc]; rfl
    rw [hu, e] at this
    exact this
  have h97 : 97 ≤ lower c := by
    rcases mem_units h with ⟨rfl, _⟩ | ⟨rfl, _⟩ | ⟨rfl, _⟩ | ⟨rfl, _⟩ | ⟨rfl, _⟩ | ⟨rfl, _⟩ | ⟨rfl, _⟩ | ⟨rfl, _⟩ | ⟨rfl, _⟩ <;>
      simp at hl <;> omega
  have : 65 ≤ c := by unfold lower at h97; split at h97 <;> omega
  unfold digitVal isDigit
  rw [if_neg (by simp; omega)]
  split
  · omega
  · split
    · omega
    · omega

theorem dropWhile_digits {ds : Str} (hd : ∀ c ∈ ds, Digit c) (hne : ds ≠ []) (t : Str) : (ds ++ t).dropWhile isSpace = ds ++ t := by
  cases ds with
  | nil => exact absurd rfl hne
  | cons c s =>
    have hc := hd c (by simp)
    rw [List.cons_append, List.dropWhile_cons_of_neg]
    unfold isSpace
    have := hc.1
    simp only [Bool.or_eq_true, beq_iff_eq, Bool.and_eq_true, decide_eq_true_eq]
    omega

theorem signed_digits {ds t : Str} (hd : ∀ c ∈ ds, Digit c) (hne : ds ≠ []) (ht : ∀ c, t.head? = some c → ¬ digitVal c < 10) :
    signed (ds ++ t) = (false, number ds) := by
  unfold signed
  rw [dropWhile_digits hd hne]
  split
  · rename_i heq
    cases ds with
    | nil => exact absurd rfl hne
    | cons c s =>
      have := (hd c (by simp)).1
      rw [List.cons_append, List.cons.injEq] at heq
      omega
  · rename_i heq
    cases ds with
    | nil => exact absurd rfl hne
    | cons c s =>
      have := (hd c (by simp)).1
      rw [List.cons_append, List.cons.injEq] at heq
      omega
  · rw [digitPrefix_all hd ht, digitsVal_eq hd]

theorem strtoul10_of {s : Str} {v : Nat} (h : signed s = (false, v)) (hv : v < 2 ^ 64) : strtoul10 s = v := by
  unfold strtoul10
  rw [h]
  simp only [Bool.false_eq_true, false_and, if_false]
  unfold clamp
  omega

theorem strtol10_of {s : Str} {v : Nat} (h : signed s = (false, v)) (hv : v < 2 ^ 63) : strtol10 s = v := by
  unfold strtol10
  rw [h]
  simp only [Bool.false_eq_true, if_false]
  omega

theorem occurs_lower (n : String) (m : Str) (hm : (lit n).map lower = m) (s : Str) : ioccurs (lit n) s = occurs m (s.map lower) := by
  unfold ioccurs
  rw [hm]

theorem last_digit {ds : Str} (hd : ∀ c ∈ ds, Digit c) (c : Nat) (hc : 57 < c) : (ds.getLast? == some c) = false := by
  cases h : ds.getLast? with
  | none => rfl
  | some x =>
    have := (hd x (List.mem_of_getLast? h)).2
    simp only [Option.some_beq_some, beq_eq_false_iff_ne, ne_eq]
    omega

/-- a size text means what it says -/
theorem convSize_spec {n : Nat} {s : Str} (h : SizeText n s) (hn : n < 2 ^ 63) : convSize s = n := by
  cases h with
  | @mk ds u v f hne hd hv hu e =>
    have hl : (ds ++ u).map lower = ds ++ v := by
      rw [List.map_append, map_lower_digits hd, hu]
      congr 1
      rcases mem_units hv with ⟨rfl, _⟩ | ⟨rfl, _⟩ | ⟨rfl, _⟩ | ⟨rfl, _⟩ | ⟨rfl, _⟩ | ⟨rfl, _⟩ | ⟨rfl, _⟩ | ⟨rfl, _⟩ | ⟨rfl, _⟩ <;> decide
    have hs : signed (ds ++ u) = (false, number ds) := signed_digits hd hne (fun c hc => head_unit hv hu c hc)
    have hauto : ieq (ds ++ u) (lit "auto") = false := by
      unfold ieq
      rw [hl]
      cases ds with
      | nil => exact absurd rfl hne
      | cons c t =>
        have := (hd c (by simp)).2
        rw [List.cons_append, show (lit "auto").map lower = [97, 117, 116, 111] from by decide]
        simp only [beq_eq_false_iff_ne, ne_eq, List.cons.injEq, not_and]
        omega
    have hf : 1 ≤ f := by
      rcases mem_units hv with ⟨_, rfl⟩ | ⟨_, rfl⟩ | ⟨_, rfl⟩ | ⟨_, rfl⟩ | ⟨_, rfl⟩ | ⟨_, rfl⟩ | ⟨_, rfl⟩ | ⟨_, rfl⟩ | ⟨_, rfl⟩ <;> omega
    have hnum : number ds < 2 ^ 63 := by
      have : number ds * 1 ≤ number ds * f := Nat.mul_le_mul_left _ hf
      omega
    have hul := strtoul10_of hs (by omega)
    have hol := strtol10_of hs hnum
    have oc : ∀ (l : String) (a : Nat) (m : Str), (lit l).map lower = a :: m → 57 < a → ioccurs (lit l) (ds ++ u) = occurs (a :: m) v := by
      intro l a m h1 h2
      rw [occurs_lower l (a :: m) h1, hl, occurs_digits hd rfl h2]
    have en : ∀ c, 97 ≤ c → c ≤ 122 → endsIn c (c - 32) (ds ++ u) = (v.getLast? == some c) := by
      intro c h1 h2
      rw [endsIn_lower h1 h2, hl]
      by_cases hv0 : v = []
      · subst hv0
        rw [List.append_nil, last_digit hd c (by omega)]
        rfl
      · rw [List.getLast?_append_of_ne_nil _ hv0]
    unfold convSize
    rw [hauto, oc "kb" 107 [98] (by decide) (by decide), oc "mb" 109 [98] (by decide) (by decide), oc "gb" 103 [98] (by decide) (by decide),
      oc "tb" 116 [98] (by decide) (by decide), en 107 (by decide) (by decide), en 109 (by decide) (by decide), en 103 (by decide) (by decide),
      en 116 (by decide) (by decide), hul, hol, e]
    subst e
    rcases mem_units hv with ⟨rfl, rfl⟩ | ⟨rfl, rfl⟩ | ⟨rfl, rfl⟩ | ⟨rfl, rfl⟩ | ⟨rfl, rfl⟩ | ⟨rfl, rfl⟩ | ⟨rfl, rfl⟩ | ⟨rfl, rfl⟩ | ⟨rfl, rfl⟩ <;>
      simp [occurs, KiB, MiB, GiB, TiB, List.isPrefixOf] <;> omega

/-! ## Lists -/

theorem strtok_comma {c : Nat} {t r : Str} (hne : t ≠ []) (ht : c ∉ t) : strtok c (t ++ c :: r) = some (t, r) := by
  cases t with
  | nil => exact absurd rfl hne
  | cons x t =>
    have hx : x ≠ c := fun e => ht (by simp [e])
    have hall : ∀ y ∈ x :: t, decide (y ≠ c) = true := fun y hy => by
      simp only [decide_eq_true_eq]
      rintro rfl
      exact ht hy
    unfold strtok
    rw [List.cons_append, List.dropWhile_cons_of_neg (by simpa using hx)]
    simp only
    rw [← List.cons_append, List.takeWhile_append_of_pos hall, List.dropWhile_append_of_pos hall, List.takeWhile_cons_of_neg (by simp),
      List.dropWhile_cons_of_neg (by simp), List.append_nil]
    rfl

theorem strtok_last {c : Nat} {t : Str} (hne : t ≠ []) (ht : c ∉ t) : strtok c t = some (t, []) := by
  cases t with
  | nil => exact absurd rfl hne
  | cons x t =>
    have hx : x ≠ c := fun e => ht (by simp [e])
    have hall : ∀ y ∈ x :: t, decide (y ≠ c) = true := fun y hy => by
      simp only [decide_eq_true_eq]
      rintro rfl
      exact ht hy
    unfold strtok
    rw [List.dropWhile_cons_of_neg (by simpa using hx)]
    simp only
    rw [List.takeWhile_eq_self_iff.2 hall, List.dropWhile_eq_nil_iff.2 hall]
    rfl

theorem strsep_comma {c : Nat} {t r : Str} (ht : c ∉ t) : strsep c (t ++ c :: r) = (t, some r) := by
  have hall : ∀ y ∈ t, decide (y ≠ c) = true := fun y hy => by
    simp only [decide_eq_true_eq]
    rintro rfl
    exact ht hy
  unfold strsep
  rw [List.takeWhile_append_of_pos hall, List.dropWhile_append_of_pos hall, List.takeWhile_cons_of_neg (by simp),
    List.dropWhile_cons_of_neg (by simp), List.append_nil]

theorem strsep_last {c : Nat} {t : Str} (ht : c ∉ t) : strsep c t = (t, none) := by
  have hall : ∀ y ∈ t, decide (y ≠ c) = true := fun y hy => by
    simp only [decide_eq_true_eq]
    rintro rfl
    exact ht hy
  unfold strsep
  rw [List.takeWhile_eq_self_iff.2 hall, List.dropWhile_eq_nil_iff.2 hall]

theorem commas_cons (t : Str) (l : List Str) (hl : l ≠ []) : commas (t :: l) = t ++ 44 :: commas l := by
  cases l with
  | nil => exact absurd rfl hl
  | cons x l => simp [commas, List.intercalate, List.intersperse]

theorem commas_one (t : Str) : commas [t] = t := by simp [commas, List.intercalate, List.intersperse]

theorem commas_length (l : List Str) (h : ∀ t ∈ l, t ≠ []) : l.length ≤ (commas l).length := by
  induction l with
  | nil => simp
  | cons t l ih =>
    have ht : 0 < t.length := List.length_pos_of_ne_nil (h t (by simp))
    by_cases hl : l = []
    · subst hl
      rw [commas_one]
      simp only [List.length_cons, List.length_nil]
      omega
    · rw [commas_cons _ _ hl]
      have := ih (fun x hx => h x (List.mem_cons_of_mem _ hx))
      simp only [List.length_cons, List.length_append]
      omega

theorem sizesLoop_spec (rd : Rat → Rat) (w : Wss) : ∀ (l : List Str) (vs : List Nat) (acc : List Nat) (fuel : Nat),
    List.Forall₂ (fun t v => t ≠ [] ∧ 44 ∉ t ∧ tokenSize rd w t = .ok v) l vs → acc.length + vs.length ≤ 128 → l.length < fuel →
    sizesLoop rd w fuel (commas l) acc = .ok (acc ++ vs) := by
  intro l
  induction l with
  | nil =>
    intro vs acc fuel h _ hf
    cases h
    cases fuel with
    | zero => simp at hf
    | succ f => simp [sizesLoop, commas, List.intercalate, List.intersperse, strtok]
  | cons t l ih =>
    intro vs acc fuel h hlen hf
    cases h with
    | @cons _ v _ vs h1 h2 =>
      obtain ⟨hne, hc, hv⟩ := h1
      cases fuel with
      | zero => simp at hf
      | succ f =>
        simp only [List.length_cons] at hlen hf
        have hacc : acc.length < maxSizes := by unfold maxSizes; omega
        have hrest : (acc ++ [v]).length + vs.length ≤ 128 := by simp; omega
        by_cases hl : l = []
        · subst hl
          cases h2
          unfold sizesLoop
          rw [commas_one, strtok_last hne hc]
          simp only [hv, Res.bind_ok, if_pos hacc]
          have := ih [] (acc ++ [v]) f List.Forall₂.nil hrest (by simp at hf ⊢; omega)
          rw [List.append_nil] at this
          exact this
        · unfold sizesLoop
          rw [commas_cons _ _ hl, strtok_comma hne hc]
          simp only [hv, Res.bind_ok, if_pos hacc]
          rw [ih vs (acc ++ [v]) f h2 hrest (by omega), List.append_assoc]
          rfl

theorem sizesLoop_over (rd : Rat → Rat) (w : Wss) : ∀ (l : List Str) (vs : List Nat) (acc : List Nat) (fuel : Nat),
    List.Forall₂ (fun t v => t ≠ [] ∧ 44 ∉ t ∧ tokenSize rd w t = .ok v) l vs → 128 < acc.length + vs.length → acc.length ≤ 128 → l.length < fuel →
    sizesLoop rd w fuel (commas l) acc = .error .outOfBounds := by
  intro l
  induction l with
  | nil =>
    intro vs acc fuel h h1 h2 hf
    cases h
    simp at h1
    omega
  | cons t l ih =>
    intro vs acc fuel h hlen hacc hf
    cases h with
    | @cons _ v _ vs h1 h2 =>
      obtain ⟨hne, hc, hv⟩ := h1
      cases fuel with
      | zero => simp at hf
      | succ f =>
        simp only [List.length_cons] at hlen hf
        by_cases hm : acc.length < maxSizes
        · have hm' : acc.length < 128 := hm
          have hl : l ≠ [] := by
            rintro rfl
            cases h2
            simp at hlen
            omega
          unfold sizesLoop
          rw [commas_cons _ _ hl, strtok_comma hne hc]
          simp only [hv, Res.bind_ok, if_pos hm]
          exact ih vs (acc ++ [v]) f h2 (by simp; omega) (by simp; omega) (by omega)
        · unfold sizesLoop
          by_cases hl : l = []
          · subst hl
            rw [commas_one, strtok_last hne hc]
            simp only [hv, Res.bind_ok, if_neg hm]
          · rw [commas_cons _ _ hl, strtok_comma hne hc]
            simp only [hv, Res.bind_ok, if_neg hm]

theorem algosLoop_spec : ∀ (l : List Str) (acc : List Str) (fuel : Nat), (∀ t ∈ l, t ≠ [] ∧ 44 ∉ t) → acc.length + l.length ≤ 16 → l.length < fuel →
    algosLoop fuel (some (commas l)) acc = .ok (acc ++ l) := by
  intro l
  induction l with
  | nil =>
    intro acc fuel _ _ hf
    cases fuel with
    | zero => simp at hf
    | succ f => simp [algosLoop, commas, List.intercalate, List.intersperse]
  | cons t l ih =>
    intro acc fuel h hlen hf
    obtain ⟨hne, hc⟩ := h t (by simp)
    cases fuel with
    | zero => simp at hf
    | succ f =>
      simp only [List.length_cons] at hlen hf
      have hacc : acc.length < maxAlgos := by unfold maxAlgos; omega
      by_cases hl : l = []
      · subst hl
        rw [commas_one]
        cases t with
        | nil => exact absurd rfl hne
        | cons x t =>
          unfold algosLoop
          rw [if_pos hacc, strsep_last hc]
          cases f with
          | zero => simp at hf
          | succ f => rfl
      · have hcons : ∃ y r, commas (t :: l) = y :: r := by
          rw [commas_cons _ _ hl]
          cases t with
          | nil => exact absurd rfl hne
          | cons x t => exact ⟨_, _, rfl⟩
        obtain ⟨y, r, e⟩ := hcons
        rw [e]
        unfold algosLoop
        rw [if_pos hacc, ← e, commas_cons _ _ hl, strsep_comma hc]
        simp only
        rw [ih (acc ++ [t]) f (fun x hx => h x (List.mem_cons_of_mem _ hx)) (by simp; omega) (by omega), List.append_assoc]
        rfl

theorem algosLoop_over : ∀ (l : List Str) (acc : List Str) (fuel : Nat), (∀ t ∈ l, t ≠ [] ∧ 44 ∉ t) → 16 < acc.length + l.length → acc.length ≤ 16 →
    l.length < fuel → algosLoop fuel (some (commas l)) acc = .error .outOfBounds := by
  intro l
  induction l with
  | nil =>
    intro acc fuel _ h1 h2 hf
    simp at h1
    omega
  | cons t l ih =>
    intro acc fuel h hlen hacc hf
    obtain ⟨hne, hc⟩ := h t (by simp)
    cases fuel with
    | zero => simp at hf
    | succ f =>
      simp only [List.length_cons] at hlen hf
      have hcons : ∃ y r, commas (t :: l) = y :: r := by
        by_cases hl : l = []
        · subst hl
          rw [commas_one]
          cases t with
          | nil => exact absurd rfl hne
          | cons x t => exact ⟨_, _, rfl⟩
        · rw [commas_cons _ _ hl]
          cases t with
          | nil => exact absurd rfl hne
          | cons x t => exact ⟨_, _, rfl⟩
      obtain ⟨y, r, e⟩ := hcons
      rw [e]
      unfold algosLoop
      by_cases hm : acc.length < maxAlgos
      · have hm' : acc.length < 16 := hm
        have hl : l ≠ [] := by
          rintro rfl
          simp at hlen
          omega
        rw [if_pos hm, ← e, commas_cons _ _ hl, strsep_comma hc]
        exact ih (acc ++ [t]) f (fun x hx => h x (List.mem_cons_of_mem _ hx)) (by simp; omega) (by simp; omega) (by omega)
      · rw [if_neg hm]

/-! ## Text forms -/

theorem _root_.Verif.Spec.Cli.SizeText.ne_nil {n : Nat} {s : Str} (h : SizeText n s) : s ≠ [] := by
  cases h with
  | mk hne _ _ _ _ => simp [hne]

theorem lower_eq_44 {c : Nat} (h : c = 44) : lower c = 44 := by subst h; rfl
theorem lower_eq_46 {c : Nat} (h : c = 46) : lower c = 46 := by subst h; rfl

theorem _root_.Verif.Spec.Cli.SizeText.plain {n : Nat} {s : Str} (h : SizeText n s) : 44 ∉ s ∧ 46 ∉ s := by
  cases h with
  | @mk ds u v f hne hd hv hu e =>
    have hnot : ∀ c, c = 44 ∨ c = 46 → c ∉ ds ++ u := by
      intro c hc hm
      rcases List.mem_append.1 hm with h | h
      · have := hd c h
        have := this.1
        omega
      · have h1 : lower c ∈ u.map lower := List.mem_map_of_mem h
        rw [hu] at h1
        have h2 : lower c = 44 ∨ lower c = 46 := by
          rcases hc with h | h
          · exact .inl (lower_eq_44 h)
          · exact .inr (lower_eq_46 h)
        rcases mem_units hv with ⟨rfl, _⟩ | ⟨rfl, _⟩ | ⟨rfl, _⟩ | ⟨rfl, _⟩ | ⟨rfl, _⟩ | ⟨rfl, _⟩ | ⟨rfl, _⟩ | ⟨rfl, _⟩ | ⟨rfl, _⟩ <;>
          simp [lower] at h1 <;> unfold lower at h2 <;> omega
    exact ⟨hnot 44 (.inl rfl), hnot 46 (.inr rfl)⟩

theorem _root_.Verif.Spec.Cli.FractionText.plain {x : Rat} {s : Str} (h : FractionText x s) : s ≠ [] ∧ 44 ∉ s ∧ 46 ∈ s := by
  cases h with
  | @mk a b ha hb e =>
    refine ⟨by simp, ?_, by simp⟩
    intro hm
    rcases List.mem_append.1 hm with h | h
    · have := (ha 44 h).1
      omega
    · rcases List.mem_cons.1 h with h | h
      · omega
      · have := (hb 44 h).1
        omega

theorem tokenSize_size (rd : Rat → Rat) (w : Wss) {n : Nat} {s : Str} (h : SizeText n s) (hn : n < 2 ^ 63) : tokenSize rd w s = .ok n := by
  unfold tokenSize
  rw [if_neg h.plain.2, convSize_spec h hn]

theorem convSize_auto {s : Str} (h : AnyCase s (lit "auto")) : convSize s = 0 := by
  unfold convSize
  have : ieq s (lit "auto") = true := by
    unfold ieq
    rw [h]
    exact beq_self_eq_true _
  rw [this]
  rfl

/-! ## Printing sizes -/

theorem decText_eq (n : Nat) : decText n = dec n := by
  induction n using Nat.strongRecOn with
  | ind n ih =>
    unfold decText
    by_cases h : n < 10
    · rw [Nat.toDigits_of_lt_base h]
      unfold dec
      rw [if_pos h]
      have : ∀ k, k < 10 → [k.digitChar].map Char.toNat = [48 + k] := by decide
      exact this n h
    · rw [Nat.toDigits_of_base_le (by omega) (by omega)]
      conv => rhs; unfold dec
      rw [if_neg h, List.map_append]
      have e := ih (n / 10) (by omega)
      unfold decText at e
      rw [e]
      have : ∀ k, k < 10 → [k.digitChar].map Char.toNat = [48 + k] := by decide
      rw [this (n % 10) (by omega)]

theorem dec_length {n k : Nat} (hk : 0 < k) (h : n < 10 ^ k) : (dec n).length ≤ k := by
  rw [← decText_eq]
  unfold decText
  rw [List.length_map]
  exact (Nat.length_toDigits_le_iff (by omega) hk).2 h

theorem roundHalfEven_near (a b : Nat) (hb : 0 < b) : 2 * a ≤ 2 * (roundHalfEven a b * b) + b ∧ 2 * (roundHalfEven a b * b) ≤ 2 * a + b := by
  have h1 := Nat.div_add_mod a b
  have h2 := Nat.mod_lt a hb
  unfold roundHalfEven
  rw [Nat.mul_comm b (a / b)] at h1
  split
  · rw [Nat.add_mul]
    omega
  · omega

theorem roundHalfEven_le {a b k : Nat} (hb : 0 < b) (h : a < k * b) : roundHalfEven a b ≤ k := by
  have h1 : a / b < k := (Nat.div_lt_iff_lt_mul hb).2 h
  unfold roundHalfEven
  split <;> omega

theorem ieq_anyCase {s t : Str} (h : AnyCase s t) (u : Str) : ieq s u = ieq t u := by
  unfold ieq
  rw [h]

end Verif.Cli
