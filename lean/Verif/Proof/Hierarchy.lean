import Verif.Example.Hierarchy
import Mathlib.Data.List.Nodup
import Mathlib.Algebra.BigOperators.Group.List.Basic
/-!
# Merging traces: helper lemmas
-/

namespace Verif.Hierarchy
open Verif Verif.Spec

def weight (files : Nat → List Rec) (q : List Entry) : Nat := (q.map fun e => 1 + (files e.src).length).sum

structure Inv (n : Nat) (files : Nat → List Rec) (q : List Entry) (finished : Nat) : Prop where
  nodup : (q.map Entry.src).Nodup
  lt : ∀ e ∈ q, e.src < n
  count : q.length + finished = n
  ended : ∀ i, i ∉ q.map Entry.src → files i = []

def of (i : Nat) (l : List Entry) : List Rec := (l.filter fun e => e.src = i).map Entry.line

theorem of_cons (i : Nat) (e : Entry) (l : List Entry) : of i (e :: l) = if e.src = i then e.line :: of i l else of i l := by
  by_cases h : e.src = i <;> simp [of, List.filter_cons, h]

theorem of_none {i : Nat} {l : List Entry} (h : i ∉ l.map Entry.src) : of i l = [] := by
  have : l.filter (fun e => decide (e.src = i)) = [] := List.filter_eq_nil_iff.2 fun e he => by
    simp only [decide_eq_true_eq]
    exact fun h' => h (List.mem_map.2 ⟨e, he, h'⟩)
  simp [of, this]

theorem same_src {i : Nat} : ∀ {a b : List Entry}, a.Perm b → (a.map Entry.src).Nodup → (∀ e ∈ a, e.src = i) → a = b
  | [], _, hp, _, _ => hp.nil_eq
  | [_], _, hp, _, _ => (List.singleton_perm.1 hp)
  | x :: y :: t, _, _, hn, hs => by
    exfalso
    rw [List.map_cons] at hn
    refine (List.nodup_cons.1 hn).1 ?_
    rw [hs x (by simp), ← hs y (by simp)]
    exact List.mem_map_of_mem (by simp)

theorem of_perm {i : Nat} {l m : List Entry} (hp : l.Perm m) (hn : (l.map Entry.src).Nodup) : of i l = of i m := by
  unfold of
  rw [same_src (i := i) (hp.filter fun e => decide (e.src = i)) (hn.sublist ((List.filter_sublist).map _)) fun e he => by simpa using (List.mem_filter.1 he).2]

theorem mergeLoop_spec (Q : MinQueue) (n : Nat) : ∀ (fuel : Nat) (files : Nat → List Rec) (q : List Entry) (finished : Nat), Inv n files q finished → weight files q ≤ fuel →
    ∃ lab : List Entry, mergeLoop Q n fuel files q finished = .ok (lab.map Entry.line) ∧ (∀ x ∈ lab, x.src < n) ∧ (∀ i, of i lab = of i q ++ (files i).map scanned) ∧
      ((∀ e ∈ q, InTime (e.line :: (files e.src).map scanned)) → InTime (lab.map Entry.line) ∧ ∀ m, (∀ e ∈ q, m ≤ e.line.ts) → ∀ x ∈ lab, m ≤ x.line.ts)
  | fuel, files, [], finished, hi, hw => by
    have hf : ∀ i, files i = [] := fun i => hi.ended i (by simp)
    refine ⟨[], ?_, by simp, fun i => by simp [of, hf i], fun _ => ⟨by simp [InTime], by simp⟩⟩
    cases fuel <;> simp [mergeLoop]
  | 0, files, e :: q, finished, hi, hw => by
    simp [weight] at hw
  | fuel + 1, files, e0 :: q0, finished, hi, hw => by
    have hne : e0 :: q0 ≠ [] := by simp
    generalize hq : e0 :: q0 = q at hi hw hne ⊢
    have hlen : 0 < q.length := by rw [← hq]; simp
    have hlt : finished < n := by have := hi.count; omega
    have hp := Q.perm q hne
    have hl := Q.least q hne
    unfold mergeLoop
    rw [if_pos ⟨hlt, hne⟩]
    generalize Q.pop q = p at hp hl
    obtain ⟨e, q'⟩ := p
    simp only at hp hl ⊢
    have hnd : ((e :: q').map Entry.src).Nodup := (hp.map Entry.src).nodup_iff.2 hi.nodup
    have hndc := hnd
    rw [List.map_cons] at hndc
    have hnd' := List.nodup_cons.1 hndc
    have hnd1 : e.src ∉ q'.map Entry.src := hnd'.1
    have hw' : weight files q = (1 + (files e.src).length) + weight files q' := by
      have := (hp.map fun e => 1 + (files e.src).length).sum_eq
      simp only [List.map_cons, List.sum_cons] at this
      simp only [weight]
      omega
    have hcnt : q'.length + 1 = q.length := by simpa using hp.length_eq
    have hmem : ∀ x ∈ q', x ∈ q := fun x hx => hp.mem_iff.1 (List.mem_cons_of_mem _ hx)
    have hme : e ∈ q := hp.mem_iff.1 List.mem_cons_self
    have hofq : ∀ i, of i q = of i (e :: q') := fun i => (of_perm hp hnd).symm
    cases hf : files e.src with
    | nil =>
      have hi' : Inv n files q' (finished + 1) := by
        refine ⟨hnd'.2, fun x hx => hi.lt x (hmem x hx), by have := hi.count; omega, fun i hni => ?_⟩
        by_cases hie : i = e.src
        · rw [hie]; exact hf
        · refine hi.ended i fun hc => ?_
          have := (hp.map Entry.src).mem_iff.2 hc
          rw [List.map_cons] at this
          rcases List.mem_cons.1 this with h | h
          · exact hie h
          · exact hni h
      obtain ⟨lab, h1, h2, h3, h4⟩ := mergeLoop_spec Q n fuel files q' (finished + 1) hi' (by rw [hf] at hw'; simp at hw'; omega)
      refine ⟨e :: lab, by simp only [h1, Res.bind_ok, List.map_cons], ?_, ?_, ?_⟩
      · intro x hx
        rcases List.mem_cons.1 hx with rfl | hx
        · exact hi.lt _ hme
        · exact h2 x hx
      · intro i
        rw [hofq, of_cons, of_cons, h3 i]
        split <;> rfl
      · intro hs
        obtain ⟨k1, k2⟩ := h4 fun x hx => hs x (hmem x hx)
        refine ⟨?_, ?_⟩
        · rw [List.map_cons]
          refine List.pairwise_cons.2 ⟨?_, k1⟩
          intro r hr
          obtain ⟨x, hx, rfl⟩ := List.mem_map.1 hr
          exact k2 e.line.ts (fun y hy => hl y (hmem y hy)) x hx
        · intro m hm x hx
          rcases List.mem_cons.1 hx with rfl | hx
          · exact hm _ hme
          · exact k2 m (fun y hy => hm y (hmem y hy)) x hx
    | cons r rest =>
      let files' := fun i => if i = e.src then rest else files i
      have hf' : ∀ i, i ≠ e.src → files' i = files i := fun i h => if_neg h
      have hfe : files' e.src = rest := if_pos rfl
      have hsrc : ∀ x ∈ q', x.src ≠ e.src := fun x hx h => hnd1 (List.mem_map.2 ⟨x, hx, h⟩)
      have hi' : Inv n files' (⟨scanned r, e.src⟩ :: q') finished := by
        refine ⟨hnd, ?_, by simpa [hcnt] using hi.count, fun i hni => ?_⟩
        · intro x hx
          rcases List.mem_cons.1 hx with rfl | hx
          · exact hi.lt e hme
          · exact hi.lt x (hmem x hx)
        · have hni' : i ≠ e.src ∧ i ∉ q'.map Entry.src := by
            constructor
            · intro h; exact hni (by simp [h])
            · intro h; exact hni (by rw [List.map_cons]; exact List.mem_cons_of_mem _ h)
          rw [hf' i hni'.1]
          refine hi.ended i fun hc => ?_
          have := (hp.map Entry.src).mem_iff.2 hc
          rw [List.map_cons] at this
          rcases List.mem_cons.1 this with h | h
          · exact hni'.1 h
          · exact hni'.2 h
      have hwt : weight files' (⟨scanned r, e.src⟩ :: q') = 1 + rest.length + weight files q' := by
        have : q'.map (fun e => 1 + (files' e.src).length) = q'.map fun e => 1 + (files e.src).length :=
          List.map_congr_left fun x hx => by rw [hf' _ (hsrc x hx)]
        simp only [weight, List.map_cons, List.sum_cons, this, hfe]
      obtain ⟨lab, h1, h2, h3, h4⟩ := mergeLoop_spec Q n fuel files' (⟨scanned r, e.src⟩ :: q') finished hi' (by rw [hwt]; rw [hf] at hw'; simp at hw'; omega)
      refine ⟨e :: lab, by simp only [files'] at h1; simp only [h1, Res.bind_ok, List.map_cons], ?_, ?_, ?_⟩
      · intro x hx
        rcases List.mem_cons.1 hx with rfl | hx
        · exact hi.lt _ hme
        · exact h2 x hx
      · intro i
        rw [hofq, of_cons, of_cons, h3 i, of_cons]
        by_cases hie : e.src = i
        · subst hie
          simp only [if_true, hfe, of_none hnd1, hf]
          simp
        · simp only [if_neg hie]
          rw [hf' i (Ne.symm hie)]
      · intro hs
        have hse := hs e hme
        rw [hf] at hse
        have hse' : e.line.ts ≤ (scanned r).ts ∧ InTime (scanned r :: rest.map scanned) := by
          obtain ⟨a, b⟩ := List.pairwise_cons.1 hse
          exact ⟨a _ (by simp), b⟩
        have hall : ∀ x ∈ (⟨scanned r, e.src⟩ :: q' : List Entry), InTime (x.line :: (files' x.src).map scanned) := by
          intro x hx
          rcases List.mem_cons.1 hx with rfl | hx
          · rw [hfe]; exact hse'.2
          · rw [hf' _ (hsrc x hx)]; exact hs x (hmem x hx)
        obtain ⟨k1, k2⟩ := h4 hall
        refine ⟨?_, ?_⟩
        · rw [List.map_cons]
          refine List.pairwise_cons.2 ⟨?_, k1⟩
          intro y hy
          obtain ⟨x, hx, rfl⟩ := List.mem_map.1 hy
          refine k2 e.line.ts (fun y hy => ?_) x hx
          rcases List.mem_cons.1 hy with rfl | hy
          · exact hse'.1
          · exact hl y (hmem y hy)
        · intro m hm x hx
          rcases List.mem_cons.1 hx with rfl | hx
          · exact hm _ hme
          · refine k2 m (fun y hy => ?_) x hx
            rcases List.mem_cons.1 hy with rfl | hy
            · exact Nat.le_trans (hm e hme) hse'.1
            · exact hm y (hmem y hy)

theorem firstEntries_src (req : Rec) : ∀ (i : Nat) (fs : List (List Rec)), (firstEntries req i fs).map Entry.src = List.range' i fs.length
  | _, [] => rfl
  | i, f :: fs => by
    simp only [firstEntries, List.map_cons, List.length_cons, List.range'_succ, firstEntries_src _ (i + 1) fs]

theorem firstEntries_line : ∀ (req : Rec) (i : Nat) (fs : List (List Rec)), (∀ f ∈ fs, f ≠ []) →
    ∀ e ∈ firstEntries req i fs, ∃ k r rest, fs[k]? = some (r :: rest) ∧ e = ⟨scanned r, i + k⟩
  | _, _, [], _, e, he => by simp [firstEntries] at he
  | req, i, f :: fs, hne, e, he => by
    obtain ⟨r, rest, rfl⟩ := List.exists_cons_of_ne_nil (hne f List.mem_cons_self)
    simp only [firstEntries, List.mem_cons] at he
    rcases he with rfl | he
    · exact ⟨0, r, rest, rfl, rfl⟩
    · obtain ⟨k, r', rest', h1, h2⟩ := firstEntries_line _ (i + 1) fs (fun f hf => hne f (List.mem_cons_of_mem _ hf)) e he
      exact ⟨k + 1, r', rest', h1, by rw [h2]; congr 1; omega⟩

theorem firstEntries_of : ∀ (req : Rec) (i : Nat) (fs : List (List Rec)), (∀ f ∈ fs, f ≠ []) → ∀ k, of (i + k) (firstEntries req i fs) = ((fs.getD k []).head?.map scanned).toList
  | _, _, [], _, k => by simp [firstEntries, of]
  | req, i, f :: fs, hne, k => by
    obtain ⟨r, rest, rfl⟩ := List.exists_cons_of_ne_nil (hne f List.mem_cons_self)
    simp only [firstEntries]
    rw [of_cons]
    cases k with
    | zero =>
      simp only [Nat.add_zero, if_true]
      rw [of_none]
      · rfl
      · rw [firstEntries_src, List.mem_range'_1]
        omega
    | succ k =>
      rw [if_neg (by show ¬ i = i + (k + 1); omega), show i + (k + 1) = i + 1 + k by omega, firstEntries_of _ (i + 1) fs (fun f hf => hne f (List.mem_cons_of_mem _ hf)) k]
      rfl

theorem weight_first : ∀ (req : Rec) (i : Nat) (fs : List (List Rec)) (files : Nat → List Rec), (∀ k, files (i + k) = (fs.getD k []).tail) →
    weight files (firstEntries req i fs) ≤ fs.flatten.length + fs.length
  | _, _, [], _, _ => by simp [firstEntries, weight]
  | req, i, f :: fs, files, hf => by
    have ih := weight_first (readFirst req f) (i + 1) fs files (fun k => by rw [show i + 1 + k = i + (k + 1) by omega, hf]; rfl)
    have h0 := hf 0
    simp only [Nat.add_zero] at h0
    have h0' : (files i).length = f.length - 1 := by rw [h0]; simp
    simp only [firstEntries, weight, List.map_cons, List.sum_cons, List.flatten_cons, List.length_append, List.length_cons] at ih ⊢
    omega

theorem merge_spec (Q : MinQueue) (garbage : Rec) (fs : List (List Rec)) (h0 : fs ≠ []) (hne : ∀ f ∈ fs, f ≠ []) :
    ∃ out, mergeTraces Q garbage fs = .ok (out.length, out) ∧ IsMerge (fs.map (List.map scanned)) out ∧ ((∀ f ∈ fs, InTime (f.map scanned)) → InTime out) := by
  have hfiles : ∀ k, (fun i => (fs.getD i []).tail) (0 + k) = (fs.getD k []).tail := fun k => by simp
  have hi : Inv fs.length (fun i => (fs.getD i []).tail) (firstEntries garbage 0 fs) 0 := by
    have hsrc := firstEntries_src garbage 0 fs
    refine ⟨by rw [hsrc]; exact List.nodup_range', fun e he => ?_, ?_, fun i hni => ?_⟩
    · have : e.src ∈ (firstEntries garbage 0 fs).map Entry.src := List.mem_map_of_mem he
      rw [hsrc, List.mem_range'_1] at this
      omega
    · have := congrArg List.length hsrc
      simpa using this
    · rw [hsrc, List.mem_range'_1] at hni
      have : fs.getD i [] = [] := by
        rw [List.getD_eq_getElem?_getD, List.getElem?_eq_none (by omega)]; rfl
      show (fs.getD i []).tail = []
      rw [this]; rfl
  obtain ⟨lab, h1, h2, h3, h4⟩ := mergeLoop_spec Q fs.length (fs.flatten.length + fs.length) _ _ 0 hi (weight_first garbage 0 fs _ hfiles)
  refine ⟨lab.map Entry.line, ?_, ?_, ?_⟩
  · unfold mergeTraces
    rw [if_neg h0, h1]
    rfl
  · refine ⟨lab.map fun e => (e.line, e.src), by simp, ?_, fun i => ?_⟩
    · intro x hx
      obtain ⟨e, he, rfl⟩ := List.mem_map.1 hx
      simpa using h2 e he
    · have e1 : ((lab.map fun e => (e.line, e.src)).filter fun x => decide (x.2 = i)).map Prod.fst = of i lab := by
        rw [List.filter_map, List.map_map]; rfl
      have e2 := firstEntries_of garbage 0 fs hne i
      rw [Nat.zero_add] at e2
      rw [e1, h3 i, e2]
      show ((fs.getD i []).head?.map scanned).toList ++ ((fs.getD i []).tail).map scanned = _
      have e3 : (fs.map (List.map scanned)).getD i [] = (fs.getD i []).map scanned := by
        rw [List.getD_eq_getElem?_getD, List.getD_eq_getElem?_getD, List.getElem?_map]
        cases fs[i]? <;> rfl
      rw [e3]
      cases fs.getD i [] <;> rfl
  · intro hs
    refine (h4 fun e he => ?_).1
    obtain ⟨k, r, rest, h5, rfl⟩ := firstEntries_line garbage 0 fs hne e he
    have : fs.getD (0 + k) [] = r :: rest := by rw [Nat.zero_add, List.getD_eq_getElem?_getD, h5]; rfl
    show InTime (scanned r :: ((fs.getD (0 + k) []).tail).map scanned)
    rw [this]
    exact hs (r :: rest) (List.mem_of_getElem? h5)

/-- The line written for a request. -/
def Timed.line (t : Timed) : Rec := ⟨t.ts, t.req.id, t.req.size⟩

theorem missTrace_gets {σ : Type} {A : Algo σ} : ∀ (ts : List Timed) (s : σ) (hits : List Bool) (s' : σ), A.gets s (ts.map Timed.req) = .ok (hits, s') →
    hits.length = ts.length ∧ missTrace A s ts = .ok (((ts.zip hits).filter fun x => !x.2).map fun x => x.1.line)
  | [], s, hits, s', h => by
    simp only [List.map_nil, Algo.gets, Except.ok.injEq, Prod.mk.injEq] at h
    rw [← h.1]
    exact ⟨rfl, rfl⟩
  | t :: ts, s, hits, s', h => by
    simp only [List.map_cons, Algo.gets] at h
    obtain ⟨⟨b, s1⟩, h1, h⟩ := Res.bind_eq_ok.1 h
    obtain ⟨⟨bs, s2⟩, h2, h⟩ := Res.bind_eq_ok.1 h
    simp only [Except.ok.injEq, Prod.mk.injEq] at h
    obtain ⟨k1, k2⟩ := missTrace_gets ts s1 bs s2 h2
    rw [← h.1]
    refine ⟨by simp [k1], ?_⟩
    unfold missTrace
    simp only [h1, Res.bind_ok, k2]
    cases b <;> simp [Timed.line]

theorem split_labels {α : Type} (l : List (α × Nat)) : ∀ n, ((List.range n).flatMap fun i => l.filter fun x => decide (x.2 = i)).Perm (l.filter fun x => decide (x.2 < n))
  | 0 => by simp
  | n + 1 => by
    rw [List.range_succ, List.flatMap_append]
    refine ((split_labels l n).append_right _).trans ?_
    have h := List.filter_append_perm (fun x : α × Nat => decide (x.2 < n)) (l.filter fun x => decide (x.2 < n + 1))
    rw [List.filter_filter, List.filter_filter] at h
    have e1 : (l.filter fun a => decide (a.2 < n) && decide (a.2 < n + 1)) = l.filter fun a => decide (a.2 < n) :=
      List.filter_congr fun x _ => by by_cases h : x.2 < n <;> simp [h]; omega
    have e2 : (l.filter fun a => !decide (a.2 < n) && decide (a.2 < n + 1)) = l.filter fun a => decide (a.2 = n) :=
      List.filter_congr fun x _ => by
        rw [Bool.eq_iff_iff]
        simp only [Bool.and_eq_true, Bool.not_eq_true', decide_eq_false_iff_not, decide_eq_true_eq]
        omega
    rw [e1, e2] at h
    simpa using h

theorem isMerge_perm {traces : List (List Rec)} {out : List Rec} (h : IsMerge traces out) : out.Perm traces.flatten := by
  obtain ⟨lab, rfl, h1, h2⟩ := h
  have e : traces = (List.range traces.length).map fun i => (lab.filter fun x => decide (x.2 = i)).map Prod.fst := by
    apply List.ext_getElem?
    intro i
    rw [List.getElem?_map]
    by_cases hi : i < traces.length
    · rw [List.getElem?_range hi, Option.map_some, h2 i, List.getD_eq_getElem?_getD, List.getElem?_eq_getElem hi]; rfl
    · rw [List.getElem?_eq_none (by omega), List.getElem?_eq_none (by simpa using by omega)]; rfl
  have hp := (split_labels lab traces.length).map Prod.fst
  rw [List.filter_eq_self.2 (fun x hx => by simpa using h1 x hx)] at hp
  rw [e]
  rw [List.map_flatMap] at hp
  simpa [List.flatMap_def] using hp.symm

theorem missTraces_gets {σ : Type} {A : Algo σ} {mk : Nat → σ} : ∀ (l1 : List (Nat × List Timed)) (hits : List (List Bool)),
    List.Forall₂ (fun x h => ∃ s, A.gets (mk x.1) (x.2.map Timed.req) = .ok (h, s)) l1 hits →
    missTraces A mk l1 = .ok (List.zipWith (fun x h => ((x.2.zip h).filter fun y => !y.2).map fun y => y.1.line) l1 hits)
  | _, _, .nil => rfl
  | _, _, .cons (a := x) (b := h) (l₁ := l) (l₂ := hs) ⟨s, h1⟩ h2 => by
    obtain ⟨cs, t⟩ := x
    unfold missTraces
    simp only [(missTrace_gets t _ h s h1).2, missTraces_gets l hs h2, Res.bind_ok, List.zipWith_cons_cons]

end Verif.Hierarchy
