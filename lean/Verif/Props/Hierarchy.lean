import Verif.Proof.Hierarchy
import Verif.Proof.DemandPaging
import Verif.Props.LRU
/-!
# C103: the cache hierarchy example

The L2 trace is made of the misses of the L1 caches, in the order of time. The theorems hold for every priority queue that takes out a record with the smallest time.
-/

namespace Verif.Props
open Verif Verif.Spec Verif.Hierarchy

/-- If every file has a line, merging writes all lines of all files, those of each file in their order, and returns their number. (Numbers are read as 32-bit numbers.) If each file is in the order of
time, so is the result. -/
theorem C103_merge_Hierarchy (Q : MinQueue) (garbage : Rec) (files : List (List Rec)) (h0 : files ≠ []) (hne : ∀ f ∈ files, f ≠ [])
    (h32 : ∀ f ∈ files, ∀ r ∈ f, r.ts < 2 ^ 32 ∧ r.id < 2 ^ 32 ∧ r.sz < 2 ^ 32) :
    ∃ out, mergeTraces Q garbage files = .ok (files.flatten.length, out) ∧ IsMerge files out ∧ out.Perm files.flatten ∧ ((∀ f ∈ files, InTime f) → InTime out) := by
  have hsc : ∀ f ∈ files, f.map scanned = f := fun f hf => by
    refine (List.map_congr_left fun r hr => ?_).trans (List.map_id f)
    obtain ⟨a, b, c⟩ := h32 f hf r hr
    simp only [scanned, Nat.mod_eq_of_lt a, Nat.mod_eq_of_lt b, Nat.mod_eq_of_lt c, id]
  have e : files.map (List.map scanned) = files := (List.map_congr_left hsc).trans (List.map_id files)
  obtain ⟨out, h1, h2, h3⟩ := merge_spec Q garbage files h0 hne
  rw [e] at h2
  have hp := isMerge_perm h2
  exact ⟨out, by rw [h1, hp.length_eq], h2, hp, fun ht => h3 fun f hf => by rw [hsc f hf]; exact ht f hf⟩

/-- The lines of the requests of a trace that missed. -/
def missed (trace : List Timed) (hits : List Bool) : List Rec := ((trace.zip hits).filter fun x => !x.2).map fun x => ⟨x.1.ts, x.1.req.id, x.1.req.size⟩

/-- The miss file of an L1 cache has a line for each request that missed, in the order of the trace. -/
theorem C103_missTrace_Hierarchy {σ : Type} (A : Algo σ) (s s' : σ) (trace : List Timed) (hits : List Bool) (h : A.gets s (trace.map Timed.req) = .ok (hits, s')) :
    missTrace A s trace = .ok (missed trace hits) :=
  (missTrace_gets trace s hits s' h).2

/-- The whole example, from the traces of the L1 caches to the trace of the L2 cache: with LRU caches, as main.cpp has them, of any sizes, and at least one request in each trace, the L2 trace has
exactly the misses of the L1 caches, those of each cache in their order; and if the traces are in the order of time, so is the L2 trace. -/
theorem C103_l2Trace_Hierarchy (Q : MinQueue) (garbage : Rec) (l1 : List (Nat × List Timed)) (h0 : l1 ≠ []) (hne : ∀ x ∈ l1, x.2 ≠ [])
    (h32 : ∀ x ∈ l1, ∀ t ∈ x.2, t.ts < 2 ^ 32 ∧ t.req.id < 2 ^ 32 ∧ t.req.size < 2 ^ 32) :
    ∃ hits : List (List Bool), List.Forall₂ (fun x h => ∃ s, LRU.algo.gets (LRU.init x.1 0 .none) (x.2.map Timed.req) = .ok (h, s)) l1 hits ∧
      ∃ out, l2Trace LRU.algo (fun cs => LRU.init cs 0 .none) Q garbage l1 = .ok (out.length, out) ∧ IsMerge (List.zipWith (fun x h => missed x.2 h) l1 hits) out ∧
        ((∀ x ∈ l1, x.2.Pairwise fun a b => a.ts ≤ b.ts) → InTime out) := by
  have hok : ∀ r, Calls {} (SizeOk 0) (.get r) := fun r => by
    show r.size % u32 + 0 < u32
    have := Nat.mod_lt r.size (show 0 < u32 by decide)
    omega
  have hoks : ∀ trace : List Req, ∀ op ∈ trace.map Op.get, Calls {} (SizeOk 0) op := fun trace op h => by
    obtain ⟨r, _, rfl⟩ := List.mem_map.1 h
    exact hok r
  have hex : ∀ x : Nat × List Timed, ∃ h, ∃ s, LRU.algo.gets (LRU.init x.1 0 .none) (x.2.map Timed.req) = .ok (h, s) := fun x => by
    obtain ⟨out, s, h⟩ := C09_safe_LRU x.1 0 .none _ (hoks (x.2.map Timed.req))
    exact ⟨out, s, by rw [← run_gets]; exact h⟩
  obtain ⟨hits, hall⟩ : ∃ hits : List (List Bool), List.Forall₂ (fun x h => ∃ s, LRU.algo.gets (LRU.init x.1 0 .none) (x.2.map Timed.req) = .ok (h, s)) l1 hits := by
    clear h0 hne h32
    induction l1 with
    | nil => exact ⟨[], .nil⟩
    | cons x l ih =>
      obtain ⟨hs, ih⟩ := ih
      obtain ⟨h, hx⟩ := hex x
      exact ⟨h :: hs, .cons hx ih⟩
  refine ⟨hits, hall, ?_⟩
  have hfiles := missTraces_gets (A := LRU.algo) (mk := fun cs => LRU.init cs 0 .none) l1 hits hall
  have hlen := hall.length_eq
  have hmem : ∀ f ∈ List.zipWith (fun x h => missed x.2 h) l1 hits, ∃ x ∈ l1, ∃ h s, LRU.algo.gets (LRU.init x.1 0 .none) (x.2.map Timed.req) = .ok (h, s) ∧ f = missed x.2 h := by
    clear hfiles hlen h0 hne h32
    induction hall with
    | nil => intro f hf; simp at hf
    | @cons x h l hs hx _ ih =>
      intro f hf
      rw [List.zipWith_cons_cons] at hf
      rcases List.mem_cons.1 hf with rfl | hf
      · exact ⟨x, List.mem_cons_self, h, hx.choose, hx.choose_spec, rfl⟩
      · obtain ⟨y, hy, k⟩ := ih f hf
        exact ⟨y, List.mem_cons_of_mem _ hy, k⟩
  have hsub : ∀ (t : List Timed) (h : List Bool), h.length = t.length → (missed t h).Sublist (t.map Timed.line) := fun t h hl => by
    have h1 : (missed t h).Sublist ((t.zip h).map fun x => x.1.line) := (List.filter_sublist).map _
    have h2 : ((t.zip h).map fun x => x.1.line) = t.map Timed.line := by
      have : (t.zip h).map Prod.fst = t := List.map_fst_zip (by omega)
      conv_rhs => rw [← this, List.map_map]
      rfl
    rwa [h2] at h1
  obtain ⟨out, k1, k2, _, k4⟩ := C103_merge_Hierarchy Q garbage (List.zipWith (fun x h => missed x.2 h) l1 hits)
    (fun hc => by
      cases hall with
      | nil => exact h0 rfl
      | cons _ _ => simp at hc)
    (fun f hf => by
      obtain ⟨x, hx, h, s, hg, rfl⟩ := hmem f hf
      obtain ⟨t, ts, ht⟩ := List.exists_cons_of_ne_nil (hne x hx)
      rw [ht, List.map_cons] at hg
      simp only [Algo.gets] at hg
      obtain ⟨⟨b, s1⟩, h1, hg⟩ := Res.bind_eq_ok.1 hg
      obtain ⟨⟨bs, s2⟩, h2, hg⟩ := Res.bind_eq_ok.1 hg
      simp only [Except.ok.injEq, Prod.mk.injEq] at hg
      obtain ⟨s', h3⟩ := (C03_hitIffCached_LRU x.1 0 .none [] [] _ (by simp) rfl).2.2 t.req (hok t.req)
      rw [h1] at h3
      have hb : b = false := (congrArg Prod.fst (Except.ok.inj h3)).trans (by rfl)
      rw [ht, ← hg.1, hb]
      simp [missed])
    (fun f hf r hr => by
      obtain ⟨x, hx, h, s, hg, rfl⟩ := hmem f hf
      have hl := (missTrace_gets x.2 _ h s hg).1
      obtain ⟨t, ht, rfl⟩ := List.mem_map.1 ((hsub x.2 h hl).subset hr)
      exact h32 x hx t ht)
  refine ⟨out, ?_, k2, fun hts => k4 fun f hf => ?_⟩
  · have hl := (isMerge_perm k2).length_eq
    unfold l2Trace
    rw [hfiles, Res.bind_ok]
    rw [hl]
    exact k1
  · obtain ⟨x, hx, h, s, hg, rfl⟩ := hmem f hf
    have hl := (missTrace_gets x.2 _ h s hg).1
    exact List.Pairwise.sublist (hsub x.2 h hl) (List.pairwise_map.2 (hts x hx))

/-! ## A priority queue -/

/-- The first entry with the smallest time, and the others. -/
def popMin : List Entry → Entry × List Entry
  | [] => (⟨⟨0, 0, 0⟩, 0⟩, [])
  | [e] => (e, [])
  | e :: f :: l => if e.line.ts ≤ (popMin (f :: l)).1.line.ts then (e, f :: l) else ((popMin (f :: l)).1, e :: (popMin (f :: l)).2)

theorem popMin_perm : ∀ l : List Entry, l ≠ [] → ((popMin l).1 :: (popMin l).2).Perm l
  | [], h => absurd rfl h
  | [_], _ => .refl _
  | e :: f :: l, _ => by
    unfold popMin
    split
    · exact .refl _
    · exact (List.Perm.swap _ _ _).trans ((popMin_perm (f :: l) (by simp)).cons e)

theorem popMin_least : ∀ l : List Entry, l ≠ [] → ∀ e ∈ l, (popMin l).1.line.ts ≤ e.line.ts
  | [], h, _, _ => absurd rfl h
  | [x], _, e, he => by rw [List.mem_singleton.1 he]; exact Nat.le_refl _
  | x :: f :: l, _, e, he => by
    have ih := popMin_least (f :: l) (by simp)
    unfold popMin
    split
    · rename_i h
      rcases List.mem_cons.1 he with rfl | he
      · exact Nat.le_refl _
      · exact Nat.le_trans h (ih e he)
    · rename_i h
      rcases List.mem_cons.1 he with rfl | he
      · show (popMin (f :: l)).1.line.ts ≤ e.line.ts
        omega
      · exact ih e he

def minQueue : MinQueue := ⟨popMin, popMin_perm, popMin_least⟩

/-- Two L1 caches with room for two and one objects. -/
def l1Demo : List (Nat × List Timed) := [(2, [⟨1, ⟨7, 1, -2⟩⟩, ⟨3, ⟨8, 1, -2⟩⟩, ⟨4, ⟨7, 1, -2⟩⟩, ⟨6, ⟨9, 1, -2⟩⟩]), (1, [⟨2, ⟨7, 1, -2⟩⟩, ⟨4, ⟨7, 1, -2⟩⟩, ⟨5, ⟨8, 1, -2⟩⟩])]

example : l2Trace LRU.algo (fun cs => LRU.init cs 0 .none) minQueue ⟨0, 0, 0⟩ l1Demo = .ok (5, [⟨1, 7, 1⟩, ⟨2, 7, 1⟩, ⟨3, 8, 1⟩, ⟨5, 8, 1⟩, ⟨6, 9, 1⟩]) := by decide +kernel

/-- The hypotheses of C103_l2Trace_Hierarchy. -/
example : (∀ x ∈ l1Demo, x.2 ≠ []) ∧ (∀ x ∈ l1Demo, ∀ t ∈ x.2, t.ts < 2 ^ 32 ∧ t.req.id < 2 ^ 32 ∧ t.req.size < 2 ^ 32) ∧ ∀ x ∈ l1Demo, x.2.Pairwise fun a b => a.ts ≤ b.ts := by
  refine ⟨by simp [l1Demo], by simp [l1Demo], by simp [l1Demo]⟩

/-- The merge of files is not the records of the files if one of them is empty: the record read before is written a second time. -/
theorem C103_emptyFile_fails_Hierarchy : ¬ ∀ (Q : MinQueue) (garbage : Rec) (files : List (List Rec)), files ≠ [] → (∀ f ∈ files, ∀ r ∈ f, r.ts < 2 ^ 32 ∧ r.id < 2 ^ 32 ∧ r.sz < 2 ^ 32) →
    ∃ out, mergeTraces Q garbage files = .ok (files.flatten.length, out) := by
  intro h
  obtain ⟨out, h⟩ := h minQueue ⟨0, 0, 0⟩ [[⟨1, 7, 1⟩], []] (by simp) (by simp)
  have e : mergeTraces minQueue ⟨0, 0, 0⟩ [[⟨1, 7, 1⟩], []] = .ok (2, [⟨1, 7, 1⟩, ⟨1, 7, 1⟩]) := by decide +kernel
  rw [e] at h
  exact absurd (show 2 = 1 from congrArg Prod.fst (Except.ok.inj h)) (by decide)

/-- If the first file is empty, an uninitialised record is written to the L2 trace. -/
theorem C103_uninit_fails_Hierarchy : ¬ ∀ (Q : MinQueue) (g g' : Rec) (files : List (List Rec)), files ≠ [] → mergeTraces Q g files = mergeTraces Q g' files := by
  intro h
  exact absurd (h minQueue ⟨0, 0, 0⟩ ⟨0, 5, 0⟩ [[], [⟨1, 7, 1⟩]] (by simp)) (by decide +kernel)

/-- Without L1 caches the merge reads the top of an empty queue. -/
theorem C103_noFiles_fails_Hierarchy : ¬ ∀ (Q : MinQueue) (garbage : Rec) (files : List (List Rec)), ∃ x, mergeTraces Q garbage files = .ok x := by
  intro h
  obtain ⟨x, h⟩ := h minQueue ⟨0, 0, 0⟩ []
  cases h

end Verif.Props
