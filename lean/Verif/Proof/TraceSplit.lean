import Verif.Spec.TraceSplit
/-!
# Proofs about splitting a trace by tenant
-/

namespace Verif.TraceSplit
open Verif Verif.Spec.Split

/-- what a request becomes -/
def shift (t0 : Nat) (q : TReq) : TReq := { q with ts := q.ts - t0 }

structure Inv (B t0 : Nat) (seen : List TReq) (st : St) : Prop where
  start : seen ≠ [] → st.start = t0
  start0 : seen = [] → st.start = u32 - 1
  all : ∀ n, (st.files n).getD [] ++ (st.buf n).map out = ((seen.filter fun q => q.ns = n).map (shift t0)).map out
  none : ∀ n, st.files n = none ↔ (seen.filter fun q => q.ns = n).length < B
  buf : ∀ n, (st.buf n).length < B

theorem step_inv {B t0 : Nat} (hB : 0 < B) {seen : List TReq} {st : St} (h : Inv B t0 seen st) {q : TReq} (h0 : seen = [] → q.ts = t0) (hq : t0 ≤ q.ts ∧ q.ts < u32 - 1) :
    Inv B t0 (seen ++ [q]) (step B st q) := by
  have hstart : (if st.start = u32 - 1 then q.ts else st.start) = t0 := by
    by_cases hs : seen = []
    · rw [if_pos (h.start0 hs), h0 hs]
    · rw [h.start hs, if_neg (by omega)]
  have hts : (q.ts + u32 - t0) % u32 = q.ts - t0 := by
    simp only [u32] at hq ⊢
    omega
  have hlen : ∀ n, ((st.files n).getD []).length + (st.buf n).length = (seen.filter fun q => q.ns = n).length := by
    intro n
    have := congrArg List.length (h.all n)
    simpa using this
  have hfil : ∀ n, (seen ++ [q]).filter (fun q => q.ns = n) = if q.ns = n then seen.filter (fun q => q.ns = n) ++ [q] else seen.filter (fun q => q.ns = n) := by
    intro n
    rw [List.filter_append]
    by_cases hn : q.ns = n <;> simp [hn]
  unfold step
  simp only [hstart, hts]
  have hsq : ({ q with ts := q.ts - t0 } : TReq) = shift t0 q := rfl
  simp only [hsq]
  have hns : (shift t0 q).ns = q.ns := rfl
  by_cases hb : (st.buf q.ns ++ [shift t0 q]).length ≥ B
  · rw [if_pos hb]
    refine ⟨fun _ => rfl, fun hx => by simp at hx, ?_, ?_, ?_⟩
    · intro n
      rw [hfil]
      by_cases hn : q.ns = n
      · subst hn
        simp only [if_true, Option.getD_some, List.map_nil, List.append_nil, List.map_append, List.map_cons]
        rw [← h.all q.ns, List.append_assoc]
      · simp only [fun x : n = q.ns => hn x.symm, hn, if_false]
        simpa [show ¬ n = q.ns from fun x => hn x.symm] using h.all n
    · intro n
      rw [hfil]
      by_cases hn : q.ns = n
      · subst hn
        simp only [if_true, reduceCtorEq, List.length_append, List.length_singleton, false_iff, Nat.not_lt]
        have := hlen q.ns
        simp only [List.length_append, List.length_singleton] at hb
        omega
      · simpa [show ¬ n = q.ns from fun x => hn x.symm, hn] using h.none n
    · intro n
      by_cases hn : n = q.ns
      · simpa [hn] using hB
      · simpa [hn] using h.buf n
  · rw [if_neg hb]
    simp only [List.length_append, List.length_singleton] at hb
    refine ⟨fun _ => rfl, fun hx => by simp at hx, ?_, ?_, ?_⟩
    · intro n
      rw [hfil]
      by_cases hn : q.ns = n
      · subst hn
        simp only [if_true, List.map_append, List.map_cons, List.map_nil]
        rw [← h.all q.ns, List.append_assoc]
      · simpa [show ¬ n = q.ns from fun x => hn x.symm, hn] using h.all n
    · intro n
      rw [hfil]
      by_cases hn : q.ns = n
      · subst hn
        simp only [if_true, List.length_append, List.length_singleton]
        have h1 := hlen q.ns
        have h2 := h.none q.ns
        constructor
        · intro hf
          rw [hf] at h1
          simp only [Option.getD_none, List.length_nil] at h1
          omega
        · intro hl
          exact h2.2 (by omega)
      · simpa [hn] using h.none n
    · intro n
      by_cases hn : n = q.ns
      · subst hn
        simp only [if_true, List.length_append, List.length_singleton]
        omega
      · simpa [hn] using h.buf n

theorem fold_inv {B t0 : Nat} (hB : 0 < B) : ∀ (qs seen : List TReq) (st : St), Inv B t0 seen st → (seen = [] → ∀ q, qs.head? = some q → q.ts = t0) → (∀ q ∈ qs, t0 ≤ q.ts ∧ q.ts < u32 - 1) →
    Inv B t0 (seen ++ qs) (qs.foldl (step B) st)
  | [], seen, st, h, _, _ => by simpa using h
  | q :: qs, seen, st, h, h0, hq => by
    have h1 := step_inv hB h (fun hs => h0 hs q rfl) (hq q (List.mem_cons_self ..))
    have := fold_inv hB qs (seen ++ [q]) (step B st q) h1 (fun hs => by simp at hs) (fun x hx => hq x (List.mem_cons_of_mem _ hx))
    rw [List.append_assoc] at this
    exact this

theorem split_ok {B t0 : Nat} (hB : 0 < B) (qs : List TReq) (h0 : ∀ q, qs.head? = some q → q.ts = t0) (hq : ∀ q ∈ qs, t0 ≤ q.ts ∧ q.ts < u32 - 1) (n : Nat) :
    split B qs n = if (qs.filter fun q => q.ns = n).length < B then none else some (((qs.filter fun q => q.ns = n).map (shift t0)).map out) := by
  have h := fold_inv hB qs [] {} ⟨fun h => absurd rfl h, fun _ => rfl, fun n => rfl, fun n => by simp [hB], fun n => hB⟩ (fun _ => h0) hq
  rw [List.nil_append] at h
  unfold split flush
  have h1 := h.all n
  have h2 := h.none n
  cases hf : (qs.foldl (step B) {}).files n with
  | none => rw [if_pos (h2.1 hf)]; rfl
  | some l =>
    rw [if_neg (fun hl => by rw [h2.2 hl] at hf; cases hf)]
    rw [hf] at h1
    simp only [Option.getD_some] at h1
    rw [Option.map_some, h1]

/-- through a reader that keeps time and object, clips the size and names the tenants one to one -/
theorem split_reader {B t0 : Nat} (hB : 0 < B) (read : Rec → TReq) (name : Nat → Nat) (hname : ∀ a b, name a = name b → a = b) (rs : List Rec)
    (hread : ∀ r ∈ rs, read r = ⟨r.ts, r.id, min r.size 4294967295, name r.tenant⟩) (ht : Times t0 rs) (t : Nat) :
    split B (rs.map read) (name t) = if (ofTenant t0 rs t).length < B then none else some (ofTenant t0 rs t) := by
  have hmap : rs.map read = rs.map fun r => ⟨r.ts, r.id, min r.size 4294967295, name r.tenant⟩ := List.map_congr_left hread
  rw [hmap, split_ok hB (t0 := t0)]
  · have e : ((rs.map fun r => (⟨r.ts, r.id, min r.size 4294967295, name r.tenant⟩ : TReq)).filter fun q => q.ns = name t) =
        (rs.filter fun r => r.tenant = t).map fun r => ⟨r.ts, r.id, min r.size 4294967295, name r.tenant⟩ := by
      rw [List.filter_map]
      congr 1
      apply List.filter_congr
      intro r _
      show decide (name r.tenant = name t) = decide (r.tenant = t)
      rw [Bool.eq_iff_iff, decide_eq_true_eq, decide_eq_true_eq]
      exact ⟨hname _ _, fun x => by rw [x]⟩
    rw [e]
    unfold ofTenant
    simp only [List.length_map, List.map_map]
    rfl
  · intro q hq
    cases rs with
    | nil => cases hq
    | cons r rs =>
      simp only [List.map_cons, List.head?_cons, Option.some.injEq] at hq
      subst hq
      exact ht.1 r rfl
  · intro q hq
    obtain ⟨r, hr, rfl⟩ := List.mem_map.1 hq
    exact ht.2 r hr

end Verif.TraceSplit
