import Verif.Tools.TraceConv
import Verif.Spec.TraceConv
import Verif.Proof.ReaderOps
import Mathlib.Data.List.Induction
import Mathlib.Tactic.NormNum

namespace Verif.TraceConv
open Verif Verif.Reader Verif.Spec Verif.Spec.Reader Verif.Spec.Conv

/-! ## the loop as a function of the requests read -/

def marks : Acc → List Request → List Rec
  | _, [] => []
  | a, q :: qs => mark a q :: marks (note a q) qs

def noteAll (a : Acc) (qs : List Request) : Acc := qs.foldl note a

theorem noteAll_n (a : Acc) (qs : List Request) : (noteAll a qs).n = a.n + qs.length := by
  induction qs generalizing a with
  | nil => rfl
  | cons q qs ih => unfold noteAll at *; rw [List.foldl_cons, ih]; simp only [note, List.length_cons]; omega

theorem convLoop_eq (hash : Nat → Nat) (total : Nat) : ∀ (fuel : Nat) (rd : Reader) (q : Request) (a : Acc) (qs : List Request),
    readUp hash fuel rd q = .ok qs → a.n + (qs.length + 1) ≤ total * 2 →
    convLoop hash total fuel rd q a = .ok (marks a (q :: qs), a.n + (qs.length + 1)) := by
  intro fuel
  induction fuel with
  | zero => intro rd q a qs h; simp [readUp] at h
  | succ fuel ih =>
    intro rd q a qs h hle
    rw [readUp] at h
    rw [convLoop]
    have hn : ¬ (note a q).n > total * 2 := by show ¬ (a.n + 1 > _); omega
    rw [if_neg hn]
    cases hr : readAbove hash rd q with
    | error e => rw [hr] at h; simp [bind, Except.bind] at h
    | ok r =>
      rw [hr] at h
      simp only [Res.bind_ok] at h ⊢
      by_cases h1 : r.1 ≠ 0
      · rw [if_pos h1] at h ⊢
        injection h with h
        subst h
        rfl
      · rw [if_neg h1] at h ⊢
        cases hu : readUp hash fuel r.2.1 r.2.2 with
        | error e => rw [hu] at h; simp [bind, Except.bind] at h
        | ok t =>
          rw [hu] at h
          simp only [Res.bind_ok] at h
          injection h with h
          subst h
          have := ih r.2.1 r.2.2 (note a q) t hu (by simp only [note, List.length_cons] at hle ⊢; omega)
          rw [this]
          simp only [Res.bind_ok, marks, note, List.length_cons]
          congr 2
          omega

theorem marks_length (a : Acc) (qs : List Request) : (marks a qs).length = qs.length := by
  induction qs generalizing a with
  | nil => rfl
  | cons q qs ih => simp [marks, ih]

theorem marks_get (a : Acc) (qs : List Request) (k : Nat) :
    (marks a qs)[k]? = qs[k]?.map (fun q => mark (noteAll a (qs.take k)) q) := by
  induction qs generalizing a k with
  | nil => simp [marks]
  | cons q qs ih =>
    cases k with
    | zero => simp [marks, noteAll]
    | succ k => simp [marks, ih, noteAll]

/-- the identity the tool uses -/
def key (q : Request) : Nat := (Rec.init q).id

/-- the map holds the latest position of each object among the requests seen -/
theorem last_spec (pre : List Request) (i : Nat) :
    match (noteAll ⟨fun _ => none, 0⟩ pre).last i with
    | some m => ∃ k : Nat, m = k ∧ pre[k]?.map key = some i ∧ ∀ j : Nat, k < j → pre[j]?.map key ≠ some i
    | none => ∀ j : Nat, pre[j]?.map key ≠ some i := by
  induction pre using List.reverseRecOn with
  | nil => simp [noteAll]
  | append_singleton pre q ih =>
    have hn : noteAll ⟨fun _ => none, 0⟩ (pre ++ [q]) = note (noteAll ⟨fun _ => none, 0⟩ pre) q := by simp [noteAll, List.foldl_append]
    have hlen := noteAll_n ⟨fun _ => none, 0⟩ pre
    have hget : ∀ j, (pre ++ [q])[j]?.map key = if j < pre.length then pre[j]?.map key else if j = pre.length then some (key q) else none := by
      intro j
      rw [List.getElem?_append]
      by_cases h : j < pre.length
      · simp [h]
      · simp only [h, if_false]
        by_cases h2 : j = pre.length
        · subst h2; simp
        · rw [if_neg h2, List.getElem?_eq_none (by simp; omega)]; rfl
    rw [hn]
    by_cases hi : i = key q
    · have : (note (noteAll ⟨fun _ => none, 0⟩ pre) q).last i = some ((noteAll ⟨fun _ => none, 0⟩ pre).n : Int) := by
        simp only [note]
        rw [if_pos]
        exact hi
      rw [this]
      refine ⟨pre.length, ?_, ?_, ?_⟩
      · rw [hlen]; simp
      · rw [hget]; simp [hi]
      · intro j hj
        rw [hget, if_neg (by omega), if_neg (by omega)]; simp
    · have : (note (noteAll ⟨fun _ => none, 0⟩ pre) q).last i = (noteAll ⟨fun _ => none, 0⟩ pre).last i := by
        simp only [note]
        rw [if_neg]
        exact hi
      rw [this]
      have hq : ¬ (some (key q) = some i) := fun h => hi (by injection h with h; exact h.symm)
      revert ih
      cases (noteAll ⟨fun _ => none, 0⟩ pre).last i with
      | none =>
        intro ih j
        rw [hget]
        split
        · exact ih j
        · split
          · exact hq
          · simp
      | some m =>
        rintro ⟨k, hm, hk, hl⟩
        have hkl : k < pre.length := by
          by_contra hc
          rw [List.getElem?_eq_none (by omega)] at hk; simp at hk
        refine ⟨k, hm, ?_, ?_⟩
        · rw [hget, if_pos hkl]; exact hk
        · intro j hj
          rw [hget]
          split
          · exact hl j hj
          · split
            · exact hq
            · simp

/-! ## the second pass -/

theorem fixAll_length (n : Nat) (b : Bool) (s : Nat → Option Nat) (l : List Rec) : (fixAll n b s l).length = l.length := by
  induction l generalizing s with
  | nil => rfl
  | cons r l ih => simp [fixAll, ih]

def fixNext (n : Nat) (r : Rec) : Int := if r.next ≠ -1 then (n : Int) - r.next else r.next

/-- the size the second pass writes -/
def FixSize (b : Bool) (s : Nat → Option Nat) (l : List Rec) (r : Rec) (z : Nat) : Prop :=
  if b then
    s r.id = some z ∨ (s r.id = none ∧ ∃ (j : Nat) (w : Rec), l[j]? = some w ∧ w.id = r.id ∧ w.size = z ∧ ∀ (m : Nat) (u : Rec), m < j → l[m]? = some u → u.id ≠ r.id)
  else z = r.size

theorem fixAll_get (n : Nat) (b : Bool) (s : Nat → Option Nat) (l : List Rec) (i : Nat) (r : Rec) (hr : l[i]? = some r) :
    ∃ o, (fixAll n b s l)[i]? = some o ∧ o.time = r.time ∧ o.id = r.id ∧ o.next = fixNext n r ∧ FixSize b s l r o.size := by
  induction l generalizing s i with
  | nil => simp at hr
  | cons r0 l ih =>
    cases i with
    | zero =>
      simp only [List.getElem?_cons_zero, Option.some.injEq] at hr
      subst hr
      refine ⟨_, by rw [fixAll, List.getElem?_cons_zero], ?_⟩
      unfold fix
      cases b with
      | false => simp [fixNext, FixSize]
      | true =>
        simp only [if_true]
        cases hs : s r0.id with
        | some z => simp [fixNext, FixSize, hs]
        | none =>
          refine ⟨rfl, rfl, rfl, ?_⟩
          simp only [FixSize, if_true]
          exact Or.inr ⟨hs, 0, r0, by simp, rfl, rfl, by intro m u h; omega⟩
    | succ i =>
      rw [List.getElem?_cons_succ] at hr
      obtain ⟨o, h1, h2, h3, h4, h5⟩ := ih (fix n b s r0).2 i hr
      refine ⟨o, by rw [fixAll, List.getElem?_cons_succ]; exact h1, h2, h3, h4, ?_⟩
      revert h5
      unfold FixSize fix
      cases b with
      | false => simp
      | true =>
        simp only [if_true]
        cases hs : s r0.id with
        | some z0 =>
          simp only
          rintro (h | ⟨h, j, w, hj, hw, hz, hm⟩)
          · exact Or.inl h
          · refine Or.inr ⟨h, j + 1, w, by rw [List.getElem?_cons_succ]; exact hj, hw, hz, ?_⟩
            intro m u hmj hu
            cases m with
            | zero =>
              simp only [List.getElem?_cons_zero, Option.some.injEq] at hu
              subst hu
              intro he
              rw [he, h] at hs
              cases hs
            | succ m => rw [List.getElem?_cons_succ] at hu; exact hm m u (by omega) hu
        | none =>
          simp only
          by_cases he : r.id = r0.id
          · rw [if_pos he]
            rintro (h | ⟨h, _⟩)
            · injection h with h
              exact Or.inr ⟨by rw [he]; exact hs, 0, r0, by simp, he.symm, h, by intro m u hm; omega⟩
            · cases h
          · rw [if_neg he]
            rintro (h | ⟨h, j, w, hj, hw, hz, hm⟩)
            · exact Or.inl h
            · refine Or.inr ⟨h, j + 1, w, by rw [List.getElem?_cons_succ]; exact hj, hw, hz, ?_⟩
              intro m u hmj hu
              cases m with
              | zero =>
                simp only [List.getElem?_cons_zero, Option.some.injEq] at hu
                subst hu
                exact fun h => he h.symm
              | succ m => rw [List.getElem?_cons_succ] at hu; exact hm m u (by omega) hu

/-! ## the bytes -/

theorem store_eq (k v : Nat) : store k v = leBytes k v := by
  induction k generalizing v with
  | zero => rfl
  | succ k ih => simp [store, leBytes, ih]

/-- a record as member values -/
def Rec.vals (r : Rec) : Fld → Int := fun f => match f with | .time => r.time | .id => r.id | .size => r.size | .next => r.next | _ => 0

theorem bytes_eq (r : Rec) (h1 : r.time < 4294967296) (h2 : r.id < 18446744073709551616) (h3 : r.size < 4294967296) :
    r.bytes = encode lOracleGeneral r.vals := by
  have e1 : ((r.time : Int) % 256 ^ 4).toNat = r.time := by norm_num; omega
  have e2 : ((r.id : Int) % 256 ^ 8).toNat = r.id := by norm_num; omega
  have e3 : ((r.size : Int) % 256 ^ 4).toNat = r.size := by norm_num; omega
  have e4 : (r.next % 256 ^ 8).toNat = (r.next % 18446744073709551616).toNat := by norm_num
  simp only [Rec.bytes, encode, lOracleGeneral, List.flatMap_cons, List.flatMap_nil, fieldBytes, Rec.vals, store_eq, e1, e2, e3, e4, List.append_nil]

/-! ## the whole conversion -/

theorem rep_bounds {v : Fld → Int} (h : Representable v) :
    (0 ≤ v .time ∧ v .time < 4294967296) ∧ (0 ≤ v .id ∧ v .id < 18446744073709551616) ∧ (0 ≤ v .size ∧ v .size < 4294967296) := by
  have h1 := h ⟨.time, 4, false⟩ (by simp)
  have h2 := h ⟨.id, 8, false⟩ (by simp)
  have h3 := h ⟨.size, 4, false⟩ (by simp)
  simp only [fits, Bool.false_eq_true, if_false] at h1 h2 h3
  norm_num at h1 h2 h3
  exact ⟨h1, h2, h3⟩

/-- a request as read shows the record `v` -/
def Shows (q : Request) (v : Fld → Int) : Prop := q.vals .time = v .time ∧ q.vals .id = v .id ∧ q.vals .size = v .size

theorem init_of_shows {q : Request} {v : Fld → Int} (h : Shows q v) (hr : Representable v) :
    ((Rec.init q).time : Int) = v .time ∧ ((Rec.init q).id : Int) = v .id ∧ ((Rec.init q).size : Int) = v .size := by
  obtain ⟨⟨a1, a2⟩, ⟨b1, b2⟩, c1, c2⟩ := rep_bounds hr
  obtain ⟨h1, h2, h3⟩ := h
  simp only [Rec.init, h1, h2, h3]
  refine ⟨?_, ?_, ?_⟩ <;> omega

theorem rev_get {α : Type} (l : List α) (i : Nat) (h : i < l.length) : l.reverse[i]? = l[l.length - 1 - i]? := by
  rw [List.getElem?_reverse h]

/-- `qs`: the requests as read, last first -/
theorem converted (b : Bool) (qs : List Request) (src : List (Fld → Int)) (hlen : qs.length = src.length)
    (hsh : ∀ (i : Nat) (q : Request) (v : Fld → Int), qs.reverse[i]? = some q → src[i]? = some v → Shows q v) (hrep : ∀ v ∈ src, Representable v) :
    Converted b src ((fixAll qs.length b (fun _ => none) (marks ⟨fun _ => none, 0⟩ qs).reverse).map Rec.vals) ∧
    ∀ r ∈ fixAll qs.length b (fun _ => none) (marks ⟨fun _ => none, 0⟩ qs).reverse,
      r.time < 4294967296 ∧ r.id < 18446744073709551616 ∧ r.size < 4294967296 ∧ -1 ≤ r.next ∧ r.next ≤ qs.length := by
  have hml := marks_length ⟨fun _ => none, 0⟩ qs
  -- what is at position i
  have hat : ∀ (i : Nat) (v : Fld → Int), src[i]? = some v → ∃ q, qs.reverse[i]? = some q ∧ Shows q v ∧
      (marks ⟨fun _ => none, 0⟩ qs).reverse[i]? = some (mark (noteAll ⟨fun _ => none, 0⟩ (qs.take (qs.length - 1 - i))) q) := by
    intro i v hv
    have hi : i < src.length := by
      by_contra hc
      rw [List.getElem?_eq_none (by omega)] at hv; cases hv
    have hq : ∃ q, qs.reverse[i]? = some q := ⟨_, List.getElem?_eq_getElem (by rw [List.length_reverse]; omega)⟩
    obtain ⟨q, hq⟩ := hq
    refine ⟨q, hq, hsh i q v hq hv, ?_⟩
    rw [rev_get _ _ (by rw [hml]; omega), hml, marks_get]
    rw [rev_get _ _ (by omega)] at hq
    rw [hq]; rfl
  have hkey : ∀ (i : Nat) (q : Request) (v : Fld → Int), qs.reverse[i]? = some q → src[i]? = some v → (key q : Int) = v .id := by
    intro i q v h1 h2
    exact (init_of_shows (hsh i q v h1 h2) (hrep v (List.mem_of_getElem? h2))).2.1
  have hids : ∀ j : Nat, (src.map (fun u => u .id))[j]? = (qs.reverse[j]?.map key).map (fun k : Nat => (k : Int)) := by
    intro j
    rw [List.getElem?_map]
    cases hs : src[j]? with
    | none =>
      rw [List.getElem?_eq_none]
      · rfl
      · rw [List.getElem?_eq_none_iff] at hs; rw [List.length_reverse]; omega
    | some v =>
      obtain ⟨q, hq, _⟩ := hat j v hs
      rw [hq]
      simp only [Option.map_some]
      rw [hkey j q v hq hs]
  have hnext : ∀ (i : Nat) (q : Request) (v : Fld → Int), qs.reverse[i]? = some q → src[i]? = some v →
      NextNumber (src.map (fun u => u .id)) i (fixNext qs.length (mark (noteAll ⟨fun _ => none, 0⟩ (qs.take (qs.length - 1 - i))) q)) := by
    intro i q v hq hv
    have hi : i < qs.length := by
      by_contra hc
      rw [List.getElem?_eq_none (by rw [List.length_reverse]; omega)] at hq; cases hq
    have hself : (src.map (fun u => u .id))[i]? = some ((key q : Nat) : Int) := by rw [hids, hq]; rfl
    have hother : ∀ m, i < m → m < qs.length → ((src.map (fun u => u .id))[m]? = (src.map (fun u => u .id))[i]? ↔
        (qs.take (qs.length - 1 - i))[qs.length - 1 - m]?.map key = some (key q)) := by
      intro m h1 h2
      rw [hself, hids, rev_get _ _ h2, List.getElem?_take, if_pos (by omega)]
      cases qs[qs.length - 1 - m]? with
      | none => simp
      | some q' => simp only [Option.map_some, Option.some.injEq]; omega
    have hl := last_spec (qs.take (qs.length - 1 - i)) (key q)
    unfold fixNext mark
    change match (noteAll ⟨fun _ => none, 0⟩ (qs.take (qs.length - 1 - i))).last (Rec.init q).id with
      | some m => ∃ k : Nat, m = k ∧ (qs.take (qs.length - 1 - i))[k]?.map key = some (key q) ∧ ∀ j : Nat, k < j → (qs.take (qs.length - 1 - i))[j]?.map key ≠ some (key q)
      | none => ∀ j : Nat, (qs.take (qs.length - 1 - i))[j]?.map key ≠ some (key q) at hl
    revert hl
    cases (noteAll ⟨fun _ => none, 0⟩ (qs.take (qs.length - 1 - i))).last (Rec.init q).id with
    | none =>
      intro hl
      refine Or.inr ⟨by simp, ?_⟩
      rintro j ⟨h1, h2, h3, _⟩
      rw [List.length_map] at h2
      exact hl _ ((hother j h1 (by omega)).1 h3)
    | some m =>
      rintro ⟨k, rfl, hk, hlast⟩
      have hkl : k < qs.length - 1 - i := by
        by_contra hc
        rw [List.getElem?_eq_none (by rw [List.length_take]; omega)] at hk; simp at hk
      refine Or.inl ⟨qs.length - 1 - k, ⟨by omega, by rw [List.length_map]; omega, ?_, ?_⟩, ?_⟩
      · rw [hother _ (by omega) (by omega), show qs.length - 1 - (qs.length - 1 - k) = k by omega]; exact hk
      · intro m h1 h2 h3
        exact hlast (qs.length - 1 - m) (by omega) ((hother m h1 (by omega)).1 h3)
      · simp only [Option.getD_some]
        rw [if_pos (by omega)]
        omega
  have hbase : ∀ (i : Nat) (v : Fld → Int) (o : Rec), src[i]? = some v →
      (fixAll qs.length b (fun _ => none) (marks ⟨fun _ => none, 0⟩ qs).reverse)[i]? = some o →
      (o.time : Int) = v .time ∧ (o.id : Int) = v .id ∧ NextNumber (src.map (fun u => u .id)) i o.next ∧
      (if b then FirstSize src v o.size else (o.size : Int) = v .size) := by
    intro i v o hv ho
    obtain ⟨q, hq, hs, hm⟩ := hat i v hv
    obtain ⟨o', h1, h2, h3, h4, h5⟩ := fixAll_get qs.length b (fun _ => none) _ i _ hm
    rw [ho] at h1
    injection h1 with h1
    subst h1
    have hr := init_of_shows hs (hrep v (List.mem_of_getElem? hv))
    refine ⟨?_, ?_, ?_, ?_⟩
    · rw [h2]; exact hr.1
    · rw [h3]; exact hr.2.1
    · rw [h4]; exact hnext i q v hq hv
    · unfold FixSize at h5
      cases b with
      | false =>
        simp only [Bool.false_eq_true, if_false] at h5 ⊢
        rw [h5]; exact hr.2.2
      | true =>
        simp only [if_true] at h5 ⊢
        rcases h5 with h5 | ⟨_, j, w, hj, hw, hz, hfirst⟩
        · cases h5
        · have hsj : ∃ u, src[j]? = some u := by
            refine ⟨_, List.getElem?_eq_getElem ?_⟩
            by_contra hc
            rw [List.getElem?_eq_none (by rw [List.length_reverse, hml]; omega)] at hj; cases hj
          obtain ⟨u, hu⟩ := hsj
          obtain ⟨q', hq', hs', hm'⟩ := hat j u hu
          rw [hj] at hm'
          injection hm' with hm'
          have hr' := init_of_shows hs' (hrep u (List.mem_of_getElem? hu))
          refine ⟨j, u, hu, ?_, ?_, ?_⟩
          · rw [← hr'.2.1, ← hr.2.1]
            have : (Rec.init q').id = (Rec.init q).id := by
              have e1 : w.id = (Rec.init q').id := by rw [hm']; rfl
              rw [← e1, hw]; rfl
            rw [this]
          · rw [← hr'.2.2, ← hz, hm']; rfl
          · intro m x hmj hx he
            obtain ⟨q2, hq2, hs2, hm2⟩ := hat m x hx
            have hr2 := init_of_shows hs2 (hrep x (List.mem_of_getElem? hx))
            refine hfirst m _ hmj hm2 ?_
            show (Rec.init q2).id = (Rec.init q).id
            have := hr2.2.1.trans (he.trans hr.2.1.symm)
            omega
  have hlen' : (fixAll qs.length b (fun _ => none) (marks ⟨fun _ => none, 0⟩ qs).reverse).length = src.length := by
    rw [fixAll_length, List.length_reverse, hml, hlen]
  refine ⟨⟨by rw [List.length_map, hlen'], ?_⟩, ?_⟩
  · intro i v r hv hr
    rw [List.getElem?_map] at hr
    cases ho : (fixAll qs.length b (fun _ => none) (marks ⟨fun _ => none, 0⟩ qs).reverse)[i]? with
    | none => rw [ho] at hr; cases hr
    | some o =>
      rw [ho] at hr
      simp only [Option.map_some, Option.some.injEq] at hr
      subst hr
      exact hbase i v o hv ho
  · intro r hr
    obtain ⟨i, hi, ho⟩ := List.mem_iff_getElem.1 hr
    have ho' := List.getElem?_eq_getElem hi
    rw [ho] at ho'
    have hv : src[i]? = some (src[i]'(by omega)) := List.getElem?_eq_getElem _
    obtain ⟨h1, h2, h3, h4⟩ := hbase i _ r hv ho'
    obtain ⟨⟨a1, a2⟩, ⟨b1, b2⟩, c1, c2⟩ := rep_bounds (hrep _ (List.mem_of_getElem? hv))
    refine ⟨by omega, by omega, ?_, ?_, ?_⟩
    · cases b with
      | false => simp only [Bool.false_eq_true, if_false] at h4; omega
      | true =>
        simp only [if_true] at h4
        obtain ⟨j, w, hw, _, hz, _⟩ := h4
        have := (rep_bounds (hrep w (List.mem_of_getElem? hw))).2.2.2
        omega
    · rcases h3 with ⟨j, _, h⟩ | ⟨h, _⟩ <;> omega
    · rcases h3 with ⟨j, ⟨_, hj, _⟩, h⟩ | ⟨h, _⟩
      · rw [List.length_map] at hj; omega
      · omega

theorem convert_ok {T : TraceFormat} (g : Good T) (hobs : .time ∈ T.obs ∧ .id ∈ T.obs ∧ .size ∈ T.obs) {vs : List (Fld → Int)} (hF : T.File vs)
    (hash : Nat → Nat) (p : Params) (h0 : p.start = 0) (hz : T.both = true → T.NoZero p.ignoreZero vs) (hc : ¬ p.cap > 1) (hs : p.sampler = none)
    (hrep : ∀ v ∈ source T p vs, Representable v) (hn : vs.length < 9223372036854775808) (b : Bool) :
    ∃ recs, convert hash (fresh T.F (encodeAll T.L vs) p) b = .ok (encodeAll lOracleGeneral recs) ∧ Converted b (source T p vs) recs ∧
      ∀ r ∈ recs, Fits lOracleGeneral r := by
  obtain ⟨qs, hb, _, hm⟩ := readBackward_at g hF hash p h0 hz hc hs newRequest
  have hql : qs.length = vs.length := by
    have := congrArg List.length hm
    simpa using this
  have hpos : 0 < vs.length := by
    rcases Nat.eq_zero_or_pos vs.length with h | h
    · exact absurd (List.length_eq_zero_iff.1 h) hF.2
    · exact h
  have hp := g.pos
  rw [← g.item] at hp
  have hnum : numReq (fresh T.F (encodeAll T.L vs) p) = .ok vs.length := by
    unfold numReq
    simp only [fresh, file_len g, h0, Nat.sub_zero, Nat.mul_div_cancel _ hp]
    rw [if_pos hpos]
  have hsh : ∀ (i : Nat) (q : Request) (v : Fld → Int), qs.reverse[i]? = some q → (source T p vs)[i]? = some v → Shows q v := by
    intro i q v h1 h2
    have e : qs.reverse.map (fun q => T.obs.map q.vals) = (source T p vs).map (fun v => T.obs.map v) := by
      rw [List.map_reverse, hm, ← List.map_reverse, ← List.map_reverse, List.reverse_reverse]
      rfl
    have e2 := congrArg (fun l => l[i]?) e
    simp only [List.getElem?_map, h1, h2, Option.map_some, Option.some.injEq] at e2
    rw [List.map_inj_left] at e2
    exact ⟨e2 _ hobs.1, e2 _ hobs.2.1, e2 _ hobs.2.2⟩
  obtain ⟨hcv, hbd⟩ := converted b qs (source T p vs) (by simp [source, hql]) hsh hrep
  refine ⟨_, ?_, hcv, ?_⟩
  · unfold readBackward at hb
    unfold convert
    rw [hnum]
    simp only [Res.bind_ok]
    revert hb
    cases readOne hash (goBackOne (setPos { fresh T.F (encodeAll T.L vs) p with fwd := false } (fresh T.F (encodeAll T.L vs) p).bytes.length)).2 newRequest with
    | error e => intro hb; simp [bind, Except.bind] at hb
    | ok r =>
      simp only [Res.bind_ok]
      intro hb
      cases hu : readUp hash ((fresh T.F (encodeAll T.L vs) p).bytes.length + 1) r.2.1 r.2.2 with
      | error e => rw [hu] at hb; simp [bind, Except.bind] at hb
      | ok t =>
        rw [hu] at hb
        simp only [Res.bind_ok] at hb
        injection hb with hb
        have htl : t.length + 1 = vs.length := by rw [← hql, ← hb]; rfl
        rw [convLoop_eq hash vs.length _ _ _ _ t hu (by simp only; omega)]
        simp only [Res.bind_ok, Nat.zero_add, htl, ne_eq, not_true_eq_false, and_false, if_false]
        rw [hb, ← hql]
        unfold reverseFile encodeAll
        rw [List.flatMap_map]
        congr 1
        apply List.flatMap_congr
        intro r hr
        obtain ⟨h1, h2, h3, _⟩ := hbd r hr
        exact bytes_eq r h1 h2 h3
  · intro r hr
    obtain ⟨o, ho, rfl⟩ := List.mem_map.1 hr
    obtain ⟨h1, h2, h3, h4, h5⟩ := hbd o ho
    intro f hf
    simp only [lOracleGeneral, List.mem_cons, List.not_mem_nil, or_false] at hf
    rcases hf with rfl | rfl | rfl | rfl <;> simp only [fits, Bool.false_eq_true, if_false, if_true, Rec.vals] <;> norm_num <;> omega

end Verif.TraceConv
