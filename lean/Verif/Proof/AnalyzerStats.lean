import Verif.Proof.Analyzer
import Mathlib.Data.List.Sort
import Mathlib.Data.List.Nodup

/-!
# The analyzer's reports and modules
-/

namespace Verif.Analyzer
open Spec.TraceStats

/-! ## Frequencies of the objects -/

theorem freq_infoOf {st : Int} {p : List Rec} {id : Nat} {i : Info} (h : infoOf st p id = some i) :
    i.freq = freq p id := by
  obtain ⟨f, q, _, _, rfl⟩ := infoOf_some h
  rfl

theorem lookup_of_mem {κ ν : Type} [DecidableEq κ] {m : List (κ × ν)} (h : (m.map (·.1)).Nodup)
    {k : κ} {v : ν} : (k, v) ∈ m ↔ m.lookup k = some v := by
  induction m with
  | nil => simp
  | cons a m ih =>
    rw [List.map_cons, List.nodup_cons] at h
    simp only [List.lookup, List.mem_cons]
    by_cases e : k = a.1
    · subst e
      simp only [beq_self_eq_true, Option.some.injEq]
      constructor
      · rintro (h1 | h1)
        · rw [← h1]
        · exact absurd (List.mem_map.mpr ⟨_, h1, rfl⟩) h.1
      · intro h1; left; rw [← h1]
    · rw [beq_false_of_ne e]
      simp only [ih h.2]
      constructor
      · rintro (h1 | h1)
        · exact absurd (by rw [← h1]) e
        · exact h1
      · exact Or.inr

/-- The frequencies in the object map are those of the trace. -/
theorem Inv.freqs {w : Nat} {st : Int} {p : List Rec} {s : State} (h : Inv w st p s) :
    s.map.map (·.2.freq) = (objects p).map (freq p) := by
  rw [← h.keys, List.map_map]
  apply List.map_congr_left
  intro a ha
  have hn : (s.map.map (·.1)).Nodup := by rw [h.keys]; exact nodup_objects p
  have := (lookup_of_mem hn (k := a.1) (v := a.2)).mp ha
  rw [h.look] at this
  exact freq_infoOf this

theorem freq_pos {p : List Rec} {id : Nat} (h : id ∈ objects p) : 0 < freq p id := by
  rw [mem_objects] at h
  obtain ⟨q, hq, e⟩ := h
  unfold freq
  rw [List.countP_pos_iff]
  exact ⟨q, hq, by simpa using e⟩

/-- The X-hit table over any list of positive frequencies. -/
theorem hit_fold (n : Nat) : ∀ (fs cnt : List Nat), cnt.length = n → (∀ f ∈ fs, 0 < f) →
    ∃ c, fs.foldl (fun c f => c >>= fun cnt => hitAdd n cnt f) (.ok cnt) = Except.ok c ∧ c.length = n ∧
      ∀ x, 1 ≤ x → x ≤ n → c[x - 1]? = cnt[x - 1]?.map (· + fs.count x) := by
  intro fs
  induction fs with
  | nil =>
    intro cnt hl _
    refine ⟨cnt, rfl, hl, fun x h1 h2 => ?_⟩
    simp
  | cons f fs ih =>
    intro cnt hl hp
    have hf := hp f (by simp)
    have hp' : ∀ f ∈ fs, 0 < f := fun g hg => hp g (List.mem_cons_of_mem _ hg)
    rw [List.foldl_cons, Res.bind_ok]
    unfold hitAdd
    by_cases h : f ≤ n
    · rw [if_pos h, if_neg (Nat.pos_iff_ne_zero.mp hf)]
      obtain ⟨c, h1, h2, h3⟩ := ih (cnt.modify (f - 1) (· + 1)) (by simpa using hl) hp'
      refine ⟨c, h1, h2, fun x hx1 hx2 => ?_⟩
      rw [h3 x hx1 hx2, List.getElem?_modify, List.count_cons]
      by_cases e : f = x
      · subst e
        cases cnt[f - 1]? <;> simp
        omega
      · have e' : ¬ (f - 1 = x - 1) := by omega
        have e'' : (f == x) = false := beq_false_of_ne e
        cases cnt[x - 1]? <;> simp [e', e'']
    · rw [if_neg h]
      obtain ⟨c, h1, h2, h3⟩ := ih cnt hl hp'
      refine ⟨c, h1, h2, fun x hx1 hx2 => ?_⟩
      rw [h3 x hx1 hx2, List.count_cons]
      have e'' : (f == x) = false := beq_false_of_ne (by omega)
      rw [e'']
      simp

theorem foldl_map_hit (n : Nat) (m : List (Nat × Info)) (c : Res (List Nat)) :
    m.foldl (fun c p => c >>= fun cnt => hitAdd n cnt p.2.freq) c =
      (m.map (·.2.freq)).foldl (fun c f => c >>= fun cnt => hitAdd n cnt f) c := by
  rw [List.foldl_map]

theorem insertBy_perm {α : Type} (le : α → α → Bool) (x : α) (l : List α) : (insertBy le x l).Perm (x :: l) := by
  induction l with
  | nil => exact List.Perm.refl _
  | cons y l ih =>
    unfold insertBy
    split
    · exact List.Perm.refl _
    · exact (List.Perm.cons y ih).trans (List.Perm.swap x y l)

theorem sortBy_perm {α : Type} (le : α → α → Bool) (l : List α) : (sortBy le l).Perm l := by
  induction l with
  | nil => exact List.Perm.refl _
  | cons x l ih => exact (insertBy_perm le x _).trans (List.Perm.cons x ih)

theorem sortBy_sorted {α : Type} (le : α → α → Bool) (ht : ∀ a b c, le a b = true → le b c = true → le a c = true)
    (hto : ∀ a b, le a b = true ∨ le b a = true) (l : List α) : (sortBy le l).Pairwise (fun a b => le a b = true) := by
  induction l with
  | nil => exact List.Pairwise.nil
  | cons x l ih =>
    show (insertBy le x (sortBy le l)).Pairwise _
    generalize sortBy le l = m at ih
    induction m with
    | nil => simp [insertBy]
    | cons y m ihm =>
      obtain ⟨h1, h2⟩ := List.pairwise_cons.mp ih
      unfold insertBy
      split
      · rename_i h
        refine List.pairwise_cons.mpr ⟨fun z hz => ?_, ih⟩
        rw [List.mem_cons] at hz
        rcases hz with rfl | hz
        · exact h
        · exact ht _ _ _ h (h1 z hz)
      · rename_i h
        refine List.pairwise_cons.mpr ⟨fun z hz => ?_, ihm h2⟩
        have := (insertBy_perm le x m).mem_iff.mp hz
        rw [List.mem_cons] at this
        rcases this with rfl | hz
        · exact (hto z y).resolve_left h
        · exact h1 z hz

theorem sortedFreq_perm (m : List (Nat × Info)) : (sortedFreq m).Perm (m.map (·.2.freq)) := sortBy_perm _ _

theorem sortedFreq_sorted (m : List (Nat × Info)) : (sortedFreq m).Pairwise (fun a b => b ≤ a) := by
  have := sortBy_sorted (fun a b : Nat => decide (b ≤ a))
    (by intro a b c h1 h2; simp only [decide_eq_true_eq] at *; omega)
    (by intro a b; simp only [decide_eq_true_eq]; omega) (m.map (·.2.freq))
  exact this.imp (by simp)

/-- The run-length encoding of a sorted list. -/
theorem runs_spec : ∀ (l : List Nat) (last cnt : Nat), (last :: l).Pairwise (fun a b => b ≤ a) →
    (runs last cnt l).Pairwise (fun a b => b.1 < a.1) ∧ (∀ x ∈ runs last cnt l, x.1 ≤ last) ∧
      ∀ f c, (f, c) ∈ runs last cnt l ↔
        (f = last ∧ c = cnt + l.count last) ∨ (f ≠ last ∧ f ∈ l ∧ c = l.count f) := by
  intro l
  induction l with
  | nil =>
    intro last cnt _
    refine ⟨by simp [runs], by simp [runs], fun f c => ?_⟩
    simp [runs]
  | cons x l ih =>
    intro last cnt h
    rw [List.pairwise_cons, List.pairwise_cons] at h
    obtain ⟨h1, h2, h3⟩ := h
    unfold runs
    by_cases e : x = last
    · subst e
      rw [if_pos rfl]
      obtain ⟨a, b, c⟩ := ih x (cnt + 1) (List.pairwise_cons.mpr ⟨h2, h3⟩)
      refine ⟨a, b, fun f n => ?_⟩
      rw [c f n, List.count_cons_self]
      constructor
      · rintro (⟨rfl, rfl⟩ | ⟨hf, hm, rfl⟩)
        · exact Or.inl ⟨rfl, by omega⟩
        · exact Or.inr ⟨hf, List.mem_cons_of_mem _ hm, by rw [List.count_cons_of_ne (Ne.symm hf)]⟩
      · rintro (⟨rfl, rfl⟩ | ⟨hf, hm, rfl⟩)
        · exact Or.inl ⟨rfl, by omega⟩
        · rw [List.mem_cons] at hm
          rcases hm with rfl | hm
          · exact absurd rfl hf
          · exact Or.inr ⟨hf, hm, by rw [List.count_cons_of_ne (Ne.symm hf)]⟩
    · rw [if_neg e]
      have hx := h1 x (by simp)
      obtain ⟨a, b, c⟩ := ih x 1 (List.pairwise_cons.mpr ⟨h2, h3⟩)
      have hnot : last ∉ x :: l := by
        intro hm
        rw [List.mem_cons] at hm
        rcases hm with rfl | hm
        · exact e rfl
        · have := h2 last hm; omega
      refine ⟨List.pairwise_cons.mpr ⟨fun y hy => ?_, a⟩, ?_, fun f n => ?_⟩
      · have := b y hy; simp only; omega
      · intro y hy
        rw [List.mem_cons] at hy
        rcases hy with rfl | hy
        · exact Nat.le_refl _
        · have := b y hy; omega
      · rw [List.mem_cons, c f n]
        constructor
        · rintro (h | ⟨rfl, rfl⟩ | ⟨hf, hm, rfl⟩)
          · cases h
            exact Or.inl ⟨rfl, by rw [List.count_eq_zero_of_not_mem hnot]; rfl⟩
          · exact Or.inr ⟨e, by simp, by rw [List.count_cons_self]; omega⟩
          · refine Or.inr ⟨?_, List.mem_cons_of_mem _ hm, by rw [List.count_cons_of_ne (Ne.symm hf)]⟩
            rintro rfl
            exact hnot (List.mem_cons_of_mem _ hm)
        · rintro (⟨rfl, rfl⟩ | ⟨hf, hm, rfl⟩)
          · left; rw [List.count_eq_zero_of_not_mem hnot]; rfl
          · right
            by_cases e2 : f = x
            · subst e2; left; exact ⟨rfl, by rw [List.count_cons_self]; omega⟩
            · right
              rw [List.mem_cons] at hm
              rcases hm with rfl | hm
              · exact absurd rfl e2
              · exact ⟨e2, hm, by rw [List.count_cons_of_ne (Ne.symm e2)]⟩

theorem popularityDump_spec (m : List (Nat × Info)) :
    (popularityDump m).Pairwise (fun a b => b.1 < a.1) ∧
      ∀ f c, (f, c) ∈ popularityDump m ↔ 0 < c ∧ c = (m.map (·.2.freq)).count f := by
  have hp := sortedFreq_perm m
  have hs := sortedFreq_sorted m
  unfold popularityDump
  cases h : sortedFreq m with
  | nil =>
    rw [h] at hp
    have e : m.map (·.2.freq) = [] := List.nil_perm.mp hp
    rw [e]
    simp only [List.count_nil]
    refine ⟨List.Pairwise.nil, fun f c => ⟨fun h => by simp at h, fun h => by omega⟩⟩
  | cons f l =>
    rw [h] at hp hs
    have hd : (f :: f :: l).Pairwise (fun a b => b ≤ a) := by
      rw [List.pairwise_cons]
      refine ⟨fun x hx => ?_, hs⟩
      rw [List.mem_cons] at hx
      rcases hx with rfl | hx
      · exact Nat.le_refl _
      · exact (List.pairwise_cons.mp hs).1 x hx
    obtain ⟨a, _, c⟩ := runs_spec (f :: l) f 0 hd
    refine ⟨a, fun g n => ?_⟩
    simp only
    rw [c g n, ← hp.count_eq]
    constructor
    · rintro (⟨rfl, rfl⟩ | ⟨hg, hm, rfl⟩)
      · refine ⟨?_, by omega⟩
        rw [List.count_cons_self]; omega
      · exact ⟨List.count_pos_iff.mpr hm, rfl⟩
    · rintro ⟨h0, rfl⟩
      by_cases e : g = f
      · subst e; exact Or.inl ⟨rfl, by omega⟩
      · exact Or.inr ⟨e, List.count_pos_iff.mp h0, rfl⟩

/-! ## Counters keyed by a value -/

theorem bumpKey_keys {κ : Type} [DecidableEq κ] (k : κ) (m : List (κ × Nat)) :
    (bumpKey k m).map (·.1) = if k ∈ m.map (·.1) then m.map (·.1) else m.map (·.1) ++ [k] := by
  induction m with
  | nil => rfl
  | cons a m ih =>
    obtain ⟨a1, a2⟩ := a
    unfold bumpKey
    by_cases e : a1 = k
    · subst e; simp
    · rw [if_neg e, List.map_cons, ih]
      have e' : k ≠ a1 := Ne.symm e
      by_cases h : k ∈ m.map (·.1)
      · have h2 : k ∈ ((a1, a2) :: m).map (·.1) := List.mem_cons_of_mem _ h
        rw [if_pos h, if_pos h2]; rfl
      · have h2 : k ∉ ((a1, a2) :: m).map (·.1) := by
          rw [List.map_cons, List.mem_cons]
          rintro (h' | h')
          · exact e' h'
          · exact h h'
        rw [if_neg h, if_neg h2]; rfl

theorem bumpKey_nodup {κ : Type} [DecidableEq κ] (k : κ) {m : List (κ × Nat)}
    (h : (m.map (·.1)).Nodup) : ((bumpKey k m).map (·.1)).Nodup := by
  rw [bumpKey_keys]
  split
  · exact h
  · rename_i hk
    rw [List.nodup_append]
    refine ⟨h, by simp, ?_⟩
    rintro a ha b hb rfl
    simp only [List.mem_singleton] at hb
    exact hk (hb ▸ ha)

theorem bumpKey_lookup {κ : Type} [DecidableEq κ] (k j : κ) (m : List (κ × Nat)) :
    (bumpKey k m).lookup j = if j = k then some (((m.lookup k).map (fun n => (n + 1) % two32)).getD 1)
      else m.lookup j := by
  induction m with
  | nil =>
    by_cases e : j = k
    · subst e; simp [bumpKey, List.lookup]
    · simp [bumpKey, List.lookup, e, beq_false_of_ne e]
  | cons a m ih =>
    obtain ⟨a1, a2⟩ := a
    unfold bumpKey
    by_cases e : a1 = k
    · subst e
      rw [if_pos rfl]
      by_cases ej : j = a1
      · subst ej; simp [List.lookup]
      · simp [List.lookup, beq_false_of_ne ej, ej]
    · rw [if_neg e]
      by_cases ej : j = a1
      · subst ej
        simp [List.lookup, e]
      · simp only [List.lookup, beq_false_of_ne ej, ih, beq_false_of_ne (Ne.symm e)]

/-- Counting any list of keys. -/
theorem bump_fold {κ : Type} [DecidableEq κ] (ks : List κ) (hl : ks.length < two32) :
    ((ks.foldl (fun m k => bumpKey k m) []).map (·.1)).Nodup ∧
      ∀ k, (ks.foldl (fun m k => bumpKey k m) []).lookup k =
        if ks.count k = 0 then none else some (ks.count k) := by
  induction ks using List.reverseRecOn with
  | nil => exact ⟨by simp, fun k => by simp⟩
  | append_singleton ks a ih =>
    have hl' : ks.length + 1 < two32 := by simpa using hl
    obtain ⟨h1, h2⟩ := ih (by omega)
    rw [List.foldl_append, List.foldl_cons, List.foldl_nil]
    refine ⟨bumpKey_nodup a h1, fun k => ?_⟩
    rw [bumpKey_lookup, h2, h2, List.count_append]
    have hc : ks.count a ≤ ks.length := List.count_le_length
    by_cases e : k = a
    · subst e
      rw [if_pos rfl]
      have : [k].count k = 1 := by simp
      have hne : ¬ ks.count k + 1 = 0 := by omega
      rw [this]
      simp only [if_neg hne]
      by_cases h0 : ks.count k = 0
      · rw [if_pos h0, h0]; rfl
      · rw [if_neg h0]
        simp only [Option.map_some, Option.getD_some, Option.some.injEq]
        exact Nat.mod_eq_of_lt (by omega)
    · rw [if_neg e]
      have : [a].count k = 0 := by simp [Ne.symm e]
      rw [this, Nat.add_zero]

/-- The lines such a counter prints: one per value that occurs, with the number of occurrences. -/
theorem bump_mem {κ : Type} [DecidableEq κ] (ks : List κ) (hl : ks.length < two32) (k : κ) (c : Nat) :
    (k, c) ∈ ks.foldl (fun m k => bumpKey k m) [] ↔ 0 < c ∧ c = ks.count k := by
  obtain ⟨h1, h2⟩ := bump_fold ks hl
  rw [lookup_of_mem h1, h2]
  by_cases h : ks.count k = 0
  · rw [if_pos h]; constructor
    · intro h'; exact absurd h' (by simp)
    · rintro ⟨h3, rfl⟩; omega
  · rw [if_neg h]
    constructor
    · intro e; cases e; exact ⟨by omega, rfl⟩
    · rintro ⟨_, rfl⟩; rfl

/-! ## Counters per window -/

theorem flush_spec {α : Type} {w : Nat} (hw : 0 < w) (zero : α) (t : Nat) :
    ∀ (fuel K : Nat) (cur : α) (out : List α), K * w ≤ t → t < (K + 1) * w + (fuel - 1) → 1 ≤ fuel →
      Win.flush w zero (t : Int) fuel { next := (((K + 1) * w : Nat) : Int), cur := cur, out := out } =
        .ok { next := (((t / w + 1) * w : Nat) : Int), cur := if t / w = K then cur else zero, out := out ++ (if t / w = K then [] else cur :: List.replicate (t / w - K - 1) zero) } := by
  intro fuel
  induction fuel with
  | zero => intro K _ _ _ _ h; omega
  | succ fuel ih =>
    intro K cur out h1 h2 _
    unfold Win.flush
    by_cases h : (K + 1) * w ≤ t
    · have h' : ((((K + 1) * w : Nat)) : Int) ≤ (t : Int) := by exact_mod_cast h
      simp only [if_pos h']
      have e : ((((K + 1) * w : Nat)) : Int) + (w : Int) = (((K + 1 + 1) * w : Nat) : Int) := by
        rw [Nat.add_mul (K + 1)]; push_cast; omega
      rw [e, ih (K + 1) zero (out ++ [cur]) h ?_ ?_]
      · have hK : K + 1 ≤ t / w := (Nat.le_div_iff_mul_le hw).mpr h
        have hne : ¬ t / w = K := by omega
        simp only [if_neg hne]
        congr 2
        · split <;> rfl
        · rw [List.append_assoc]
          congr 1
          by_cases h3 : t / w = K + 1
          · rw [if_pos h3, h3]
            simp
          · rw [if_neg h3]
            have : t / w - K - 1 = (t / w - (K + 1) - 1) + 1 := by omega
            rw [this, List.replicate_succ]
            rfl
      · rw [Nat.add_mul (K + 1)]; omega
      · rcases Nat.eq_zero_or_pos fuel with rfl | h3
        · omega
        · exact h3
    · have h' : ¬ ((((K + 1) * w : Nat)) : Int) ≤ (t : Int) := by exact_mod_cast h
      simp only [if_neg h']
      have : t / w = K := by
        apply Nat.le_antisymm
        · exact Nat.lt_succ_iff.mp ((Nat.div_lt_iff_lt_mul hw).mpr (Nat.lt_of_not_le h))
        · exact (Nat.le_div_iff_mul_le hw).mpr h1
      simp [this]

theorem charged_append {β : Type} (w : Nat) : ∀ (l : List (Nat × β)) (k t : Nat) (x : β),
    charged w k (l ++ [(t, x)]) = charged w k l ++ [(((l.getLast?).map (fun y => y.1 / w)).getD k, x)] := by
  intro l
  induction l with
  | nil => intro k t x; rfl
  | cons a l ih =>
    intro k t x
    obtain ⟨a1, a2⟩ := a
    simp only [List.cons_append, charged, ih]
    congr 3
    cases l with
    | nil => rfl
    | cons b l =>
      cases h : (b :: l).getLast? with
      | none => simp at h
      | some y =>
        have : ((a1, a2) :: b :: l).getLast? = some y := by
          rw [List.getLast?_cons_cons]; exact h
        rw [this]
        rfl

theorem charged_le {β : Type} {w : Nat} : ∀ (l : List (Nat × β)) (k T : Nat),
    (∀ y ∈ l, y.1 ≤ T) → k ≤ T / w → ∀ y ∈ charged w k l, y.1 ≤ T / w := by
  intro l
  induction l with
  | nil => intro k T _ _ y hy; simp [charged] at hy
  | cons a l ih =>
    intro k T h hk y hy
    obtain ⟨a1, a2⟩ := a
    simp only [charged, List.mem_cons] at hy
    rcases hy with rfl | hy
    · exact hk
    · exact ih (a1 / w) T (fun z hz => h z (List.mem_cons_of_mem _ hz))
        (Nat.div_le_div_right (h (a1, a2) (by simp))) y hy

/-- The counters of window `k`: those of the events charged to it. -/
def cell {α β : Type} (a0 zero : α) (count : α → β → α) (cs : List (Nat × β)) (k : Nat) : α :=
  ((cs.filter (fun y => decide (y.1 = k))).map (·.2)).foldl count (if k = 0 then a0 else zero)

/-- The state of a windowed counter after the events `es`. -/
def winOf {α β : Type} (w : Nat) (a0 zero : α) (count : α → β → α) (es : List (Nat × β)) : Win α :=
  let T := ((es.getLast?).map (fun y => y.1)).getD 0
  { next := (((T / w + 1) * w : Nat) : Int), cur := cell a0 zero count (charged w 0 es) (T / w), out := (List.range (T / w)).map (cell a0 zero count (charged w 0 es)) }

/-- One more event. -/
theorem winOf_append {α β : Type} {w : Nat} (hw : 0 < w) (a0 zero : α) (count : α → β → α)
    (es : List (Nat × β)) (t : Nat) (x : β) (hs : ∀ y ∈ es, y.1 ≤ t)
    (hsorted : es.Pairwise (fun a b => a.1 ≤ b.1)) :
    Win.flush w zero (t : Int) (t + 1) { winOf w a0 zero count es with cur := count (winOf w a0 zero count es).cur x } =
      .ok (winOf w a0 zero count (es ++ [(t, x)])) := by
  generalize hT : ((es.getLast?).map (fun y => y.1)).getD 0 = T
  have hTle : T ≤ t := by
    rw [← hT]
    cases h : es.getLast? with
    | none => exact Nat.zero_le _
    | some y => exact hs y (List.mem_of_getLast? h)
  have hall : ∀ y ∈ es, y.1 ≤ T := by
    intro y hy
    cases es using List.reverseRecOn with
    | nil => simp at hy
    | append_singleton es a =>
      have : T = a.1 := by rw [← hT]; simp
      rw [this]
      rw [List.pairwise_append] at hsorted
      rw [List.mem_append, List.mem_singleton] at hy
      rcases hy with hy | rfl
      · exact hsorted.2.2 y hy a (by simp)
      · exact Nat.le_refl _
  have hch : charged w 0 (es ++ [(t, x)]) = charged w 0 es ++ [(T / w, x)] := by
    rw [charged_append]
    congr 3
    rw [← hT]
    cases h : es.getLast? with
    | none => simp
    | some y => rfl
  have hle := charged_le (w := w) es 0 T hall (Nat.zero_le _)
  have hcell : ∀ k, cell a0 zero count (charged w 0 (es ++ [(t, x)])) k =
      if k = T / w then count (cell a0 zero count (charged w 0 es) k) x
      else cell a0 zero count (charged w 0 es) k := by
    intro k
    unfold cell
    rw [hch, List.filter_append, List.map_append, List.foldl_append]
    by_cases h : k = T / w
    · subst h; simp
    · have : ¬ T / w = k := Ne.symm h
      simp [h, this]
  have hbig : ∀ k, T / w < k → cell a0 zero count (charged w 0 es) k = zero := by
    intro k hk
    unfold cell
    have : (charged w 0 es).filter (fun y => decide (y.1 = k)) = [] := by
      rw [List.filter_eq_nil_iff]
      intro y hy
      have := hle y hy
      simp only [decide_eq_true_eq]
      omega
    rw [this]
    simp only [List.map_nil, List.foldl_nil]
    rw [if_neg (Nat.ne_of_gt (Nat.lt_of_le_of_lt (Nat.zero_le _) hk))]
  have hfl := flush_spec hw zero t (t + 1) (T / w) (count (cell a0 zero count (charged w 0 es) (T / w)) x)
    ((List.range (T / w)).map (cell a0 zero count (charged w 0 es)))
    (Nat.le_trans (Nat.div_mul_le_self _ _) hTle)
    (by have : w ≤ (T / w + 1) * w := Nat.le_mul_of_pos_left _ (Nat.succ_pos _); omega) (by omega)
  have hlast : (((es ++ [(t, x)]).getLast?).map (fun y => y.1)).getD 0 = t := by simp
  have hwin : winOf w a0 zero count es = { next := (((T / w + 1) * w : Nat) : Int), cur := cell a0 zero count (charged w 0 es) (T / w), out := (List.range (T / w)).map (cell a0 zero count (charged w 0 es)) } := by
    unfold winOf; rw [hT]
  rw [hwin]
  refine hfl.trans ?_
  unfold winOf
  rw [hlast]
  have hmono : T / w ≤ t / w := Nat.div_le_div_right hTle
  congr 2
  · by_cases h : t / w = T / w
    · rw [if_pos h, hcell, if_pos h, h]
    · rw [if_neg h, hcell, if_neg h, hbig _ (by omega)]
  · by_cases h : t / w = T / w
    · rw [if_pos h, List.append_nil, h]
      apply List.map_congr_left
      intro k hk
      rw [List.mem_range] at hk
      rw [hcell, if_neg (by omega)]
    · rw [if_neg h]
      have e : t / w = T / w + (1 + (t / w - T / w - 1)) := by omega
      conv => rhs; rw [e, List.range_add, List.map_append]
      congr 1
      · apply List.map_congr_left
        intro k hk
        rw [List.mem_range] at hk
        rw [hcell, if_neg (by omega)]
      · rw [Nat.add_comm 1, List.range_succ_eq_map, List.map_cons, List.map_cons, List.map_map, List.map_map]
        congr 1
        · rw [hcell]; simp
        · symm
          rw [List.eq_replicate_iff]
          refine ⟨by simp, ?_⟩
          intro b hb
          rw [List.mem_map] at hb
          obtain ⟨j, _, rfl⟩ := hb
          simp only [Function.comp]
          rw [hcell, if_neg (by omega), hbig _ (by omega)]

end Verif.Analyzer
