import Verif.Spec.BinFmt
import Verif.Proof.ReaderFmt
/-!
# C38: format strings
-/

namespace Verif.Props.Reader
open Verif Verif.Reader Verif.Spec.Reader Verif.Spec.BinFmt

theorem letter_size {c : Char} {w : Nat} {s : Bool} (h : letter c = some (w, s)) : letterSize c = some w ∧ 0 < w ∧ c ≠ 'f' ∧ c ≠ 'd' := by
  unfold letter at h
  split at h <;> first | (cases h; exact ⟨rfl, by decide, by decide, by decide⟩) | cases h

theorem rec_load : ∀ {cs : List Char} {vs : List Int} {bs : List Nat} (_ : Rec cs vs bs) (_ : Half cs vs) (i off k : Nat) (c : Char) (pre post : List Nat),
    calOffset cs i = some off → cs[i]? = some c → letterSize c = some k →
    ∃ v, vs[i]? = some v ∧ leI (pre ++ bs ++ post) (pre.length + off) k true = .ok v
  | _, _, _, .nil, _, i, off, k, c, pre, post, _, h, _ => by simp at h
  | _, _, _, .cons (c := c0) (v := v) (w := w) (s := s) (bs := bs) hl hf hr, hh, 0, off, k, c, pre, post, ho, hc, hk => by
    obtain ⟨hsz, hw, _, _⟩ := letter_size hl
    rw [calOffset] at ho
    injection ho with ho
    subst ho
    simp only [List.length_cons, List.getElem?_cons_zero, Option.some.injEq] at hc
    subst hc
    rw [hsz] at hk
    injection hk with hk
    subst hk
    refine ⟨v, rfl, ?_⟩
    have hv := hh.1 w s hl
    have h1 : fits ⟨.id, w, true⟩ v := by
      unfold fits at hf ⊢
      simp only [if_true]
      refine ⟨?_, hv⟩
      cases s with
      | true => simp only [if_true] at hf; exact hf.1
      | false =>
        simp only [Bool.false_eq_true, if_false] at hf
        have : (0 : Int) ≤ 256 ^ w / 2 := Int.ediv_nonneg (Int.le_of_lt (Int.pow_pos (by decide))) (by decide)
        omega
    have := leI_field (f := ⟨.id, w, true⟩) hw h1 pre (bs ++ post)
    rw [Nat.add_zero, ← List.append_assoc pre, List.append_assoc (pre ++ _)]
    exact this
  | _, _, _, .cons (c := c0) (v := v) (w := w) (s := s) (cs := cs) (bs := bs) hl hf hr, hh, i + 1, off, k, c, pre, post, ho, hc, hk => by
    obtain ⟨hsz, hw, _, _⟩ := letter_size hl
    rw [calOffset, hsz] at ho
    cases hco : calOffset cs i with
    | none => rw [hco] at ho; cases ho
    | some o =>
      rw [hco] at ho
      injection ho with ho
      subst ho
      rw [List.getElem?_cons_succ] at hc
      obtain ⟨v', h1, h2⟩ := rec_load hr hh.2 i o k c (pre ++ fieldBytes ⟨.id, w, s⟩ v) post hco hc hk
      refine ⟨v', by rw [List.getElem?_cons_succ]; exact h1, ?_⟩
      rw [List.length_append, fieldBytes_length] at h2
      rw [← Nat.add_assoc, ← List.append_assoc pre]
      exact h2

/-- what the loads of the present fields do -/
theorem binLoads_spec {cs : List Char} {vs : List Int} {bs : List Nat} (hr : Rec cs vs bs) (hh : Half cs vs) (pre post : List Nat) :
    ∀ (fs : List (Fld × Nat)) (ls : List Load), (fs.map (·.1)).Nodup → binLoads cs fs = some ls → ∀ x : Vals,
    ∃ y, loadAll (pre ++ bs ++ post) pre.length ls x = .ok y ∧
      (∀ f i, (f, i) ∈ fs → i ≠ 0 → ∃ v, vs[i - 1]? = some v ∧ y f = store f v) ∧ (∀ g, (∀ i, (g, i) ∈ fs → i = 0) → y g = x g)
  | [], ls, _, h, x => by
    rw [binLoads] at h
    injection h with h
    subst h
    exact ⟨x, rfl, by simp, fun _ _ => rfl⟩
  | (f, i) :: rest, ls, hn, h, x => by
    rw [List.map_cons, List.nodup_cons] at hn
    rw [binLoads] at h
    by_cases hi : i = 0
    · rw [if_pos hi] at h
      obtain ⟨y, e, h1, h2⟩ := binLoads_spec hr hh pre post rest ls hn.2 h x
      refine ⟨y, e, ?_, ?_⟩
      · intro g j hg hj
        rcases List.mem_cons.1 hg with hg | hg
        · injection hg with _ hg; omega
        · exact h1 g j hg hj
      · intro g hg
        exact h2 g (fun j hj => hg j (List.mem_cons_of_mem _ hj))
    · rw [if_neg hi] at h
      cases hl : binLoad cs f i with
      | none => rw [hl] at h; cases h
      | some l =>
        cases hb : binLoads cs rest with
        | none => rw [hl, hb] at h; cases h
        | some ls' =>
          rw [hl, hb] at h
          injection h with h
          subst h
          unfold binLoad at hl
          cases hc : cs[i - 1]? with
          | none => rw [hc] at hl; cases hl
          | some c =>
            cases ho : calOffset cs (i - 1) with
            | none => rw [hc, ho] at hl; cases hl
            | some off =>
              rw [hc, ho] at hl
              simp only at hl
              split at hl
              · cases hl
              · cases hk : letterSize c with
                | none => rw [hk] at hl; cases hl
                | some k =>
                  rw [hk] at hl
                  injection hl with hl
                  subst hl
                  obtain ⟨v, hv, hload⟩ := rec_load hr hh (i - 1) off k c pre post ho hc hk
                  obtain ⟨y, e, h1, h2⟩ := binLoads_spec hr hh pre post rest ls' hn.2 hb (x.set f (store f v))
                  refine ⟨y, ?_, ?_, ?_⟩
                  · rw [loadAll, hload]; exact e
                  · intro g j hg hj
                    rcases List.mem_cons.1 hg with hg | hg
                    · injection hg with hg1 hg2
                      subst hg1; subst hg2
                      refine ⟨v, hv, ?_⟩
                      rw [h2 g (fun j hj => absurd (List.mem_map_of_mem (f := (·.1)) hj) hn.1)]
                      simp [Vals.set]
                    · exact h1 g j hg hj
                  · intro g hg
                    have hne : g ≠ f := by
                      rintro rfl
                      exact hi (hg i (List.mem_cons_self ..))
                    rw [h2 g (fun j hj => hg j (List.mem_cons_of_mem _ hj))]
                    simp [Vals.set, hne]

theorem rec_length : ∀ {cs : List Char} {vs : List Int} {bs : List Nat}, Rec cs vs bs → calOffset cs cs.length = some bs.length
  | _, _, _, .nil => rfl
  | _, _, _, .cons hl hf hr => by
    rw [List.length_cons, calOffset, (letter_size hl).1, rec_length hr, List.length_append, fieldBytes_length]

/-- **C38** (`_partial`: values of unsigned letters below half their range) for every format string and every choice of fields, a
record written with one value per letter is decoded so that each chosen field has the value at its position, converted to the type of
the request's member; and records follow each other without gap -/
theorem C38_partial (fmt : List Char) (idF timeF sizeF opF nextF : Nat) (F : Fmt) (hF : binFmt fmt idF timeF sizeF opF nextF = some F)
    (vs : List Int) (bs : List Nat) (hr : Rec fmt vs bs) (hh : Half fmt vs) (pre post : List Nat) (x : Vals) :
    F.item = bs.length ∧ ∃ y, F.decode (pre ++ bs ++ post) pre.length x = .ok y ∧
      ∀ f i, (f, i) ∈ [(Fld.id, idF), (.time, timeF), (.size, sizeF), (.op, opF), (.next, nextF)] → i ≠ 0 →
        ∃ v, vs[i - 1]? = some v ∧ y f = store f v := by
  unfold binFmt at hF
  split at hF
  · cases hF
  · cases hl : binLoads fmt [(.id, idF), (.time, timeF), (.size, sizeF), (.op, opF), (.next, nextF)] with
    | none => rw [hl] at hF; cases hF
    | some ls =>
      rw [hl, rec_length hr] at hF
      simp only at hF
      split at hF
      · cases hF
      · injection hF with hF
        subst hF
        obtain ⟨y, e, h1, _⟩ := binLoads_spec hr hh pre post _ ls (by simp) hl x
        exact ⟨rfl, y, by unfold Fmt.decode; rw [e]; rfl, h1⟩

/-- a record of format `IqIH` and its fields: time is field 1, the object id field 2, its size field 3 -/
example : (binFmt ['I', 'q', 'I', 'H'] 2 1 3 0 0).isSome = true ∧
    Rec ['I', 'q', 'I', 'H'] [5, -3, 700, 9] [5, 0, 0, 0, 253, 255, 255, 255, 255, 255, 255, 255, 188, 2, 0, 0, 9, 0] ∧
    Half ['I', 'q', 'I', 'H'] [5, -3, 700, 9] := by
  refine ⟨by decide, ?_, ?_⟩
  · exact .cons (w := 4) (s := false) (v := 5) rfl (by simp [fits]) (.cons (w := 8) (s := true) (v := -3) rfl (by simp [fits])
      (.cons (w := 4) (s := false) (v := 700) rfl (by simp [fits]) (.cons (w := 2) (s := false) (v := 9) rfl (by simp [fits]) .nil)))
  · refine ⟨?_, ?_, ?_, ?_, trivial⟩ <;> (intro w s h; simp [letter] at h; obtain ⟨rfl, _⟩ := h; decide)

/-- the stored value is the written one when the member's type can hold it -/
theorem C38_stored (f : Fld) (v : Int) (h : inDest f v) : store f v = v := store_id f v h

/-- **C38** fails for unsigned letters: an object id 2^31 written as `I` is read as 2^64 - 2^31 -/
theorem C38_fails : ∃ F, binFmt ['I'] 1 0 0 0 0 = some F ∧ Rec ['I'] [2147483648] [0, 0, 0, 128] ∧
    (F.decode [0, 0, 0, 128] 0 newRequest.vals).map (fun y => y .id) = .ok (18446744071562067968) := by
  refine ⟨_, rfl, .cons (w := 4) (s := false) (v := 2147483648) rfl (by simp [fits]) .nil, by decide +kernel⟩

/-- **C38** fails for unsigned letters: a time 255 written as `B` is read as -1 -/
theorem C38_time_fails : ∃ F, binFmt ['Q', 'B'] 1 2 0 0 0 = some F ∧ Rec ['Q', 'B'] [7, 255] [7, 0, 0, 0, 0, 0, 0, 0, 255] ∧
    (F.decode [7, 0, 0, 0, 0, 0, 0, 0, 255] 0 newRequest.vals).map (fun y => (y .id, y .time)) = .ok (7, -1) := by
  refine ⟨_, rfl, .cons (w := 8) (s := false) (v := 7) rfl (by simp [fits]) (.cons (w := 1) (s := false) (v := 255) rfl (by simp [fits]) .nil), by decide +kernel⟩

end Verif.Props.Reader
