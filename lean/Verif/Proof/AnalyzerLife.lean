import Verif.Proof.AnalyzerDecay

/-!
# Lifetimes, access ages and size changes, over any annotated requests
-/

namespace Verif.Analyzer
open Spec.TraceStats

/-! ## LifetimeDistribution -/

/-- The requests to one object, with their positions. -/
def evs (ns : List Note) (k : Nat) : List (Note × Nat) := (ns.zipIdx 1).filter (fun x => decide (x.1.id = k))

theorem evs_append (ns : List Note) (n : Note) (k : Nat) :
    evs (ns ++ [n]) k = evs ns k ++ if n.id = k then [(n, ns.length + 1)] else [] := by
  unfold evs
  rw [List.zipIdx_append, List.filter_append]
  congr 1
  by_cases h : n.id = k
  · simp [List.zipIdx, h, Nat.add_comm]
  · simp [List.zipIdx, h]

theorem evs_nil (ns : List Note) (k : Nat) : evs ns k = [] ↔ k ∉ ns.map (·.id) := by
  unfold evs
  rw [List.filter_eq_nil_iff]
  constructor
  · intro h hm
    rw [List.mem_map] at hm
    obtain ⟨n, hn, rfl⟩ := hm
    obtain ⟨i, hi, e⟩ := List.mem_iff_getElem.mp hn
    have : (n, i + 1) ∈ ns.zipIdx 1 := by
      rw [List.mk_mem_zipIdx_iff_le_and_getElem?_sub]
      exact ⟨by omega, by rw [Nat.add_sub_cancel, List.getElem?_eq_getElem hi, e]⟩
    have := h _ this
    simp at this
  · intro h x hx
    simp only [decide_eq_true_eq]
    intro e
    apply h
    rw [List.mem_map]
    exact ⟨x.1, List.fst_mem_of_mem_zipIdx hx, e⟩

theorem evs_mem {ns : List Note} {k : Nat} {x : Note × Nat} (h : x ∈ evs ns k) : x.1 ∈ ns ∧ x.1.id = k := by
  unfold evs at h
  obtain ⟨h1, h2⟩ := List.mem_filter.mp h
  exact ⟨List.fst_mem_of_mem_zipIdx h1, by simpa using h2⟩

/-- A number at the first and at the last request to an object. -/
def firstOf (f : Note × Nat → Int) (ns : List Note) (k : Nat) : Int := ((evs ns k).head?.map f).getD 0
/-- see `firstOf` -/
def lastOf (f : Note × Nat → Int) (ns : List Note) (k : Nat) : Int := ((evs ns k).getLast?.map f).getD 0

/-- The objects first requested during the first day. -/
def dayOne (ns : List Note) : List Nat :=
  ((ns.map (·.id)).eraseDups).filter (fun k => decide (firstOf (fun x => x.1.rel) ns k < 86400))

/-- First and last value for each of these. -/
def lifeList (f : Note × Nat → Int) (ns : List Note) : List (Nat × (Int × Int)) :=
  (dayOne ns).map (fun k => (k, (firstOf f ns k, lastOf f ns k)))

theorem lookup_map_pair {ν : Type} (ks : List Nat) (f : Nat → ν) (k : Nat) :
    (ks.map (fun j => (j, f j))).lookup k = if k ∈ ks then some (f k) else none := by
  induction ks with
  | nil => rfl
  | cons a ks ih =>
    simp only [List.map_cons, List.lookup]
    by_cases e : k = a
    · subst e; simp
    · rw [beq_false_of_ne e]
      simp only [ih, List.mem_cons, e, false_or]

theorem life_fold (ns : List Note) (h : Timed ns) :
    Life.run ns = { nReq := ns.length, clock := lifeList (fun x => x.1.rel) ns, logical := lifeList (fun x => (x.2 : Int)) ns } := by
  unfold Life.run
  induction ns using List.reverseRecOn with
  | nil => rfl
  | append_singleton ns n ih =>
    obtain ⟨h1, h2, h3⟩ := h.left
    rw [List.foldl_append, ih h1, List.foldl_cons, List.foldl_nil]
    unfold Life.add
    have hlk : (lifeList (fun x => x.1.rel) ns).lookup n.id = if n.id ∈ dayOne ns then some (firstOf (fun x => x.1.rel) ns n.id, lastOf (fun x => x.1.rel) ns n.id) else none := by
      unfold lifeList
      rw [lookup_map_pair]
    have hfirst : ∀ (f : Note × Nat → Int) (k : Nat), k ∈ ns.map (·.id) → firstOf f (ns ++ [n]) k = firstOf f ns k := by
      intro f k hk
      unfold firstOf
      rw [evs_append]
      cases he : evs ns k with
      | nil => exact absurd hk ((evs_nil ns k).mp he)
      | cons a l => rfl
    have hlast : ∀ (f : Note × Nat → Int) (k : Nat), k ≠ n.id → lastOf f (ns ++ [n]) k = lastOf f ns k := by
      intro f k hk
      unfold lastOf
      rw [evs_append, if_neg (Ne.symm hk), List.append_nil]
    have hlastn : ∀ f : Note × Nat → Int, lastOf f (ns ++ [n]) n.id = f (n, ns.length + 1) := by
      intro f
      unfold lastOf
      rw [evs_append, if_pos rfl]
      simp
    have hmemday : ∀ k, k ∈ dayOne ns → k ∈ ns.map (·.id) := by
      intro k hk
      exact List.mem_eraseDups.mp (List.mem_filter.mp hk).1
    have her : ((ns ++ [n]).map (·.id)).eraseDups = if n.id ∈ ns.map (·.id) then (ns.map (·.id)).eraseDups else (ns.map (·.id)).eraseDups ++ [n.id] := by
      rw [List.map_append, List.map_cons, List.map_nil, List.eraseDups_append]
      simp only [List.removeAll, List.filter_cons, List.filter_nil]
      by_cases hm : n.id ∈ ns.map (·.id)
      · have : (ns.map (·.id)).elem n.id = true := by simpa using hm
        rw [if_pos hm, this]; simp
      · have : (ns.map (·.id)).elem n.id = false := by simpa using hm
        rw [if_neg hm, this]; rfl
    have hold : n.id ∈ ns.map (·.id) → dayOne (ns ++ [n]) = dayOne ns := by
      intro hm
      unfold dayOne
      rw [her, if_pos hm]
      apply List.filter_congr
      intro k hk
      rw [hfirst _ k (List.mem_eraseDups.mp hk)]
    by_cases hm : n.id ∈ dayOne ns
    · rw [hlk, if_pos hm]
      have hin := hmemday _ hm
      have hupd : ∀ f : Note × Nat → Int, setLast n.id (f (n, ns.length + 1)) (lifeList f ns) = lifeList f (ns ++ [n]) := by
        intro f
        unfold setLast lifeList
        rw [hold hin, List.map_map]
        apply List.map_congr_left
        intro k hk
        simp only [Function.comp]
        by_cases e : k = n.id
        · subst e; rw [if_pos rfl, hlastn, hfirst f _ hin]
        · rw [if_neg e, hlast f k e, hfirst f k (hmemday k hk)]
      simp only [List.length_append, List.length_cons, List.length_nil]
      rw [← hupd (fun x => x.1.rel), ← hupd (fun x => (x.2 : Int))]
    · rw [hlk, if_neg hm]
      simp only
      by_cases hin : n.id ∈ ns.map (·.id)
      · have hge : ¬ n.rel < 86400 := by
          intro hlt
          apply hm
          unfold dayOne
          rw [List.mem_filter]
          refine ⟨List.mem_eraseDups.mpr hin, ?_⟩
          simp only [decide_eq_true_eq]
          unfold firstOf
          cases he : evs ns n.id with
          | nil => exact absurd hin ((evs_nil ns n.id).mp he)
          | cons a l =>
            have := h2 a.1 (evs_mem (ns := ns) (k := n.id) (x := a) (by rw [he]; simp)).1
            simp
            omega
        rw [if_neg hge]
        have hupd : ∀ f : Note × Nat → Int, lifeList f ns = lifeList f (ns ++ [n]) := by
          intro f
          unfold lifeList
          rw [hold hin]
          apply List.map_congr_left
          intro k hk
          have e : k ≠ n.id := by rintro rfl; exact hm hk
          rw [hlast f k e, hfirst f k (hmemday k hk)]
        simp only [List.length_append, List.length_cons, List.length_nil]
        rw [← hupd, ← hupd]
      · have hfn : ∀ f : Note × Nat → Int, firstOf f (ns ++ [n]) n.id = f (n, ns.length + 1) := by
          intro f
          unfold firstOf
          rw [evs_append, if_pos rfl, (evs_nil ns n.id).mpr hin]
          rfl
        have hday : dayOne (ns ++ [n]) = dayOne ns ++ if n.rel < 86400 then [n.id] else [] := by
          unfold dayOne
          rw [her, if_neg hin, List.filter_append]
          congr 1
          · apply List.filter_congr
            intro k hk
            rw [hfirst _ k (List.mem_eraseDups.mp hk)]
          · simp only [List.filter_cons, List.filter_nil, hfn, decide_eq_true_eq]
        have hupd : ∀ f : Note × Nat → Int, lifeList f (ns ++ [n]) = lifeList f ns ++ if n.rel < 86400 then [(n.id, (f (n, ns.length + 1), f (n, ns.length + 1)))] else [] := by
          intro f
          unfold lifeList
          rw [hday, List.map_append]
          congr 1
          · apply List.map_congr_left
            intro k hk
            have e : k ≠ n.id := by rintro rfl; exact hm hk
            rw [hlast f k e, hfirst f k (hmemday k hk)]
          · by_cases hlt : n.rel < 86400
            · rw [if_pos hlt, if_pos hlt, List.map_cons, List.map_nil, hfn, hlastn]
            · rw [if_neg hlt, if_neg hlt]; rfl
        rw [hupd, hupd]
        by_cases hlt : n.rel < 86400
        · simp only [if_pos hlt, List.length_append, List.length_cons, List.length_nil]
        · simp only [if_neg hlt, List.append_nil, List.length_append, List.length_cons, List.length_nil]

theorem lifeCounts_eq (div mul : Int) (m : List (Nat × (Int × Int))) :
    lifeCounts div mul m = (m.map (fun p => Int.tdiv (p.2.2 - p.2.1) div * mul)).foldl (fun m k => bumpKey k m) [] := by
  unfold lifeCounts
  rw [List.foldl_map]

/-! ## ProbAtAge -/

theorem age_fold (w warmup : Nat) (ns : List Note) :
    ProbAtAge.run w warmup ns = ((ns.filter (fun (n : Note) => !decide (n.rel < warmup ∨ n.createR < warmup))).map (fun n => (Int.tdiv n.rSince w, Int.tdiv (n.rel - n.createR) w))).foldl (fun m k => bumpKey k m) [] := by
  unfold ProbAtAge.run
  induction ns using List.reverseRecOn with
  | nil => rfl
  | append_singleton ns n ih =>
    rw [List.foldl_append, ih, List.foldl_cons, List.foldl_nil, List.filter_append, List.map_append, List.foldl_append]
    unfold ProbAtAge.add
    by_cases h : n.rel < warmup ∨ n.createR < warmup
    · have e : [n].filter (fun (n : Note) => !decide (n.rel < warmup ∨ n.createR < warmup)) = [] := by
        rw [List.filter_cons, decide_eq_true h]; rfl
      rw [if_pos h, e]; rfl
    · have e : [n].filter (fun (n : Note) => !decide (n.rel < warmup ∨ n.createR < warmup)) = [n] := by
        rw [List.filter_cons, decide_eq_false h]; rfl
      rw [if_neg h, e]; rfl

/-! ## SizeChangeDistribution -/

theorem bitLen_spec (n : Nat) (h : 0 < n) : 0 < bitLen n ∧ 2 ^ (bitLen n - 1) ≤ n ∧ n < 2 ^ bitLen n := by
  induction n using Nat.strongRecOn with
  | ind n ih =>
    rw [bitLen, if_neg (by omega)]
    refine ⟨by omega, ?_⟩
    by_cases h1 : n / 2 = 0
    · have : n = 1 := by omega
      subst this
      rw [h1, bitLen, if_pos rfl]
      decide
    · obtain ⟨a, b, c⟩ := ih (n / 2) (by omega) (by omega)
      rw [Nat.add_sub_cancel, Nat.pow_succ]
      have e : 2 ^ bitLen (n / 2) = 2 ^ (bitLen (n / 2) - 1) * 2 := by
        rw [← Nat.pow_succ]; congr 1; omega
      omega

theorem absPos_lt (d : Int) : absPos d < 33 := by
  unfold absPos
  split
  · omega
  · simp only
    generalize (if d > 0 then (16 : Int) + bitLen d.toNat else 16 - bitLen (-d).toNat) = p
    split
    · omega
    · split <;> omega

theorem relPos_lt (c : Rat) : relPos c < 29 := by
  unfold relPos
  split
  · omega
  · have : relBounds.findIdx (fun b => decide (c < b)) ≤ 13 := by
      have := List.findIdx_le_length (xs := relBounds) (p := fun b => decide (c < b))
      simpa [relBounds] using this
    simp only
    split <;> omega

/-- The overwrites, with the change of the size. -/
def changes (ns : List Note) : List Int := (ns.filter (·.overwrite)).map (fun n => (n.size : Int) - n.prevSize)

theorem change_fold (ns : List Note) (hl : ns.length < two64) :
    (SizeChange.run ns).total = ns.length ∧ (SizeChange.run ns).abs.length = 33 ∧
      ∀ b, b < 33 → (SizeChange.run ns).abs[b]? = some ((changes ns).countP (fun d => decide (absPos d = b))) := by
  unfold SizeChange.run
  induction ns using List.reverseRecOn with
  | nil =>
    refine ⟨rfl, rfl, fun b hb => ?_⟩
    show (List.replicate 33 0)[b]? = _
    rw [List.getElem?_replicate, if_pos hb]
    rfl
  | append_singleton ns n ih =>
    have hl' : ns.length + 1 < two64 := by simpa using hl
    obtain ⟨h1, h2, h3⟩ := ih (by omega)
    rw [List.foldl_append, List.foldl_cons, List.foldl_nil]
    generalize ns.foldl SizeChange.add { total := 0, abs := List.replicate 33 0, rel := List.replicate 29 0 } = s at h1 h2 h3 ⊢
    have hle : (changes ns).length ≤ ns.length := by
      unfold changes; rw [List.length_map]; exact List.length_filter_le _ _
    unfold SizeChange.add changes
    rw [List.filter_append, List.map_append]
    by_cases ho : n.overwrite
    · rw [if_pos ho]
      refine ⟨by simp [h1], by simpa using h2, fun b hb => ?_⟩
      show (s.abs.modify _ _)[b]? = _
      rw [List.getElem?_modify, h3 b hb, List.countP_append]
      have hc : (changes ns).countP (fun d => decide (absPos d = b)) ≤ (changes ns).length := List.countP_le_length
      have e1 : ([n].filter (·.overwrite)).map (fun n => (n.size : Int) - n.prevSize) = [(n.size : Int) - n.prevSize] := by simp [ho]
      rw [e1]
      by_cases e : absPos ((n.size : Int) - n.prevSize) = b
      · simp only [e, if_true, Option.map_eq_map, Option.map_some, Option.some.injEq]
        rw [Nat.mod_eq_of_lt (by omega)]
        simp [e, changes]
      · simp [e, changes]
    · rw [if_neg ho]
      refine ⟨by simp [h1], h2, fun b hb => ?_⟩
      have e1 : ([n].filter (·.overwrite)).map (fun n => (n.size : Int) - n.prevSize) = [] := by simp [ho]
      rw [e1, List.append_nil]
      exact h3 b hb

/-- The quotients of the size changes of the overwrites and the sizes before. -/
def relChanges (ns : List Note) : List Rat := (ns.filter (·.overwrite)).map (fun n => (((n.size : Int) - n.prevSize : Int) : Rat) / (n.prevSize : Rat))

theorem change_rel (ns : List Note) (hl : ns.length < two64) :
    (SizeChange.run ns).rel.length = 29 ∧
      ∀ b, b < 29 → (SizeChange.run ns).rel[b]? = some ((relChanges ns).countP (fun d => decide (relPos d = b))) := by
  unfold SizeChange.run
  induction ns using List.reverseRecOn with
  | nil =>
    refine ⟨rfl, fun b hb => ?_⟩
    show (List.replicate 29 0)[b]? = _
    rw [List.getElem?_replicate, if_pos hb]
    rfl
  | append_singleton ns n ih =>
    have hl' : ns.length + 1 < two64 := by simpa using hl
    obtain ⟨h2, h3⟩ := ih (by omega)
    rw [List.foldl_append, List.foldl_cons, List.foldl_nil]
    generalize ns.foldl SizeChange.add { total := 0, abs := List.replicate 33 0, rel := List.replicate 29 0 } = s at h2 h3 ⊢
    have hle : (relChanges ns).length ≤ ns.length := by
      unfold relChanges; rw [List.length_map]; exact List.length_filter_le _ _
    unfold SizeChange.add relChanges
    rw [List.filter_append, List.map_append]
    by_cases ho : n.overwrite
    · rw [if_pos ho]
      refine ⟨by simpa using h2, fun b hb => ?_⟩
      show (s.rel.modify _ _)[b]? = _
      rw [List.getElem?_modify, h3 b hb, List.countP_append]
      have hc : (relChanges ns).countP (fun d => decide (relPos d = b)) ≤ (relChanges ns).length := List.countP_le_length
      have e1 : ([n].filter (·.overwrite)).map (fun n => (((n.size : Int) - n.prevSize : Int) : Rat) / (n.prevSize : Rat)) = [(((n.size : Int) - n.prevSize : Int) : Rat) / (n.prevSize : Rat)] := by simp [ho]
      rw [e1]
      generalize (((n.size : Int) - n.prevSize : Int) : Rat) / (n.prevSize : Rat) = z
      rw [show ((ns.filter (·.overwrite)).map (fun n => (((n.size : Int) - n.prevSize : Int) : Rat) / (n.prevSize : Rat))) = relChanges ns from rfl]
      by_cases e : relPos z = b
      · simp only [e, if_true, Option.map_eq_map, Option.map_some, Option.some.injEq]
        rw [Nat.mod_eq_of_lt (by omega)]
        simp [e]
      · simp [e]
    · rw [if_neg ho]
      refine ⟨h2, fun b hb => ?_⟩
      have e1 : ([n].filter (·.overwrite)).map (fun n => (((n.size : Int) - n.prevSize : Int) : Rat) / (n.prevSize : Rat)) = [] := by simp [ho]
      rw [e1, List.append_nil]
      exact h3 b hb

end Verif.Analyzer
