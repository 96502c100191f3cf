import Verif.Proof.AnalyzerModules

/-!
# Reuse, access pattern, lifetime, access age and size change, over any annotated requests
-/

namespace Verif.Analyzer
open Spec.TraceStats

/-! ## ReuseDistribution -/

/-- The bin of the reuse time of a request. -/
def rKey (gran : Nat) (n : Note) : Int := if n.rSince < 0 then -1 else ((n.rSince.toNat / gran : Nat) : Int)
/-- The bin of the reuse distance in requests. -/
def vKey (bucket : Nat → Nat) (n : Note) : Int := if n.rSince < 0 then -1 else ((bucket n.vSince.toNat : Nat) : Int)

/-- How a reuse is counted in its window. -/
def reuseCount (gran : Nat) (bucket : Nat → Nat) (c : ReuseWin) (n : Note) : ReuseWin :=
  { rt := vecIncr 2 c.rt (n.rSince.toNat / gran), vt := vecIncr 2 c.vt (bucket n.vSince.toNat) }

/-- `ReuseDistribution` is its two counters and its windows, independently. -/
theorem reuse_fold {w gran : Nat} (hw : 0 < w) (hg : 0 < gran) (bucket : Nat → Nat) (ns : List Note) (h : Timed ns)
    (hne : ns ≠ []) (hfirst : ∀ n, ns.head? = some n → n.rSince < 0) :
    ReuseStat.run gran bucket w ns = .ok { rt := (ns.map (rKey gran)).foldl (fun m k => bumpKey k m) [], vt := (ns.map (vKey bucket)).foldl (fun m k => bumpKey k m) [], win := winOf w { rt := [], vt := [] } { rt := [], vt := [] } (reuseCount gran bucket) ((ns.filter (fun n => decide (0 ≤ n.rSince))).map (fun n => (n.rel.toNat, n))) } := by
  unfold ReuseStat.run
  induction ns using List.reverseRecOn with
  | nil => exact absurd rfl hne
  | append_singleton ns n ih =>
    obtain ⟨h1, h2, h3⟩ := h.left
    have hn0 : 0 ≤ n.rel := h.nonneg n (by simp)
    have hgz : ¬ gran = 0 := by omega
    rw [List.foldl_append]
    by_cases he : ns = []
    · subst he
      have hc : n.rSince < 0 := hfirst n (by simp)
      have hn : ¬ (0 ≤ n.rSince) := by omega
      rw [List.foldl_nil, List.foldl_cons, List.foldl_nil, Res.bind_ok]
      unfold ReuseStat.add
      simp only [if_pos hc]
      simp only [List.nil_append, List.map_cons, List.map_nil, List.foldl_cons, List.foldl_nil, List.filter_cons, List.filter_nil, decide_eq_true_eq, if_neg hn, List.map_nil, winOf_nil, h3 rfl, rKey, vKey, if_pos hc]
      simp
    · rw [ih h1 he (by
        intro m hm
        apply hfirst
        cases ns with
        | nil => exact absurd rfl he
        | cons a ns => exact hm), List.foldl_cons, List.foldl_nil, Res.bind_ok]
      unfold ReuseStat.add
      rw [List.map_append, List.map_append, List.foldl_append, List.foldl_append, List.filter_append, List.map_append]
      simp only [if_neg (winOf_next _ _ _ _)]
      by_cases hc : n.rSince < 0
      · have hn : ¬ (0 ≤ n.rSince) := by omega
        simp [hc, hn, rKey, vKey]
      · have hn : 0 ≤ n.rSince := by omega
        simp only [if_neg hc, if_neg hgz]
        have e1 : [n].filter (fun n => decide (0 ≤ n.rSince)) = [n] := by simp [hn]
        rw [e1]
        have key := winOf_append hw { rt := [], vt := [] } { rt := [], vt := [] } (reuseCount gran bucket) ((ns.filter (fun n => decide (0 ≤ n.rSince))).map (fun n => (n.rel.toNat, n))) n.rel.toNat n
          (by
            intro y hy
            rw [List.mem_map] at hy
            obtain ⟨m, hm, rfl⟩ := hy
            have := h2 m (List.mem_filter.mp hm).1
            simp only
            omega)
          (by
            rw [List.pairwise_map]
            exact (h1.sorted.filter _).imp (by intro a b hab; omega))
        unfold Win.add
        simp only [if_neg (winOf_next _ _ _ _)]
        have e : ((n.rel.toNat : Nat) : Int) = n.rel := by omega
        rw [e] at key
        have key2 : Win.flush w { rt := [], vt := [] } n.rel (n.rel.toNat + 1) { winOf w { rt := [], vt := [] } { rt := [], vt := [] } (reuseCount gran bucket) ((ns.filter (fun n => decide (0 ≤ n.rSince))).map (fun n => (n.rel.toNat, n))) with cur := { rt := vecIncr 2 (winOf w { rt := [], vt := [] } { rt := [], vt := [] } (reuseCount gran bucket) ((ns.filter (fun n => decide (0 ≤ n.rSince))).map (fun n => (n.rel.toNat, n)))).cur.rt (n.rSince.toNat / gran), vt := vecIncr 2 (winOf w { rt := [], vt := [] } { rt := [], vt := [] } (reuseCount gran bucket) ((ns.filter (fun n => decide (0 ≤ n.rSince))).map (fun n => (n.rel.toNat, n)))).cur.vt (bucket n.vSince.toNat) } } = _ := key
        rw [key2, Res.bind_ok]
        simp [rKey, vKey, hc]

/-- The counters of a window of the reuse distribution. -/
theorem reuseWin_fold (gran : Nat) (bucket : Nat → Nat) (ns : List Note) (hl : ns.length < two32) (b : Nat) :
    (ns.foldl (reuseCount gran bucket) { rt := [], vt := [] }).rt.getD b 0 = ns.countP (fun n => decide (n.rSince.toNat / gran = b)) ∧
      (ns.foldl (reuseCount gran bucket) { rt := [], vt := [] }).vt.getD b 0 = ns.countP (fun n => decide (bucket n.vSince.toNat = b)) := by
  induction ns using List.reverseRecOn with
  | nil => exact ⟨rfl, rfl⟩
  | append_singleton ns n ih =>
    have hl' : ns.length + 1 < two32 := by simpa using hl
    obtain ⟨h1, h2⟩ := ih (by omega)
    rw [List.foldl_append, List.foldl_cons, List.foldl_nil, List.countP_append, List.countP_append]
    have c1 : ns.countP (fun n => decide (n.rSince.toNat / gran = b)) ≤ ns.length := List.countP_le_length
    have c2 : ns.countP (fun n => decide (bucket n.vSince.toNat = b)) ≤ ns.length := List.countP_le_length
    constructor
    · show (vecIncr 2 _ _).getD b 0 = _
      rw [vecIncr_getD 2 (by decide), h1]
      by_cases e : b = n.rSince.toNat / gran
      · rw [if_pos e, Nat.mod_eq_of_lt (by omega)]; simp [e]
      · rw [if_neg e]; simp [Ne.symm e]
    · show (vecIncr 2 _ _).getD b 0 = _
      rw [vecIncr_getD 2 (by decide), h2]
      by_cases e : b = bucket n.vSince.toNat
      · rw [if_pos e, Nat.mod_eq_of_lt (by omega)]; simp [e]
      · rw [if_neg e]; simp [Ne.symm e]

/-! ## AccessPattern -/

theorem bumps_nodup {κ : Type} [DecidableEq κ] (ks : List κ) :
    ((ks.foldl (fun m k => bumpKey k m) []).map (·.1)).Nodup := by
  induction ks using List.reverseRecOn with
  | nil => simp
  | append_singleton ks a ih =>
    rw [List.foldl_append, List.foldl_cons, List.foldl_nil]
    exact bumpKey_nodup a ih

theorem pushKey_map (k x : Nat) (keys : List Nat) (f : Nat → List Nat) (hn : keys.Nodup) :
    pushKey k x (keys.map (fun j => (j, f j))) =
      if k ∈ keys then keys.map (fun j => (j, if j = k then f j ++ [x] else f j))
      else keys.map (fun j => (j, f j)) ++ [(k, [x])] := by
  induction keys with
  | nil => rfl
  | cons a keys ih =>
    obtain ⟨h1, h2⟩ := List.nodup_cons.mp hn
    simp only [List.map_cons, pushKey]
    by_cases e : a = k
    · subst e
      rw [if_pos rfl, if_pos (by simp)]
      congr 1
      · simp
      · apply List.map_congr_left
        intro j hj
        rw [if_neg (by rintro rfl; exact h1 hj)]
    · rw [if_neg e, ih h2]
      by_cases hm : k ∈ keys
      · rw [if_pos hm, if_pos (List.mem_cons_of_mem _ hm), if_neg e]
      · have : k ∉ a :: keys := by
          rw [List.mem_cons]; rintro (h' | h')
          · exact e h'.symm
          · exact hm h'
        rw [if_neg hm, if_neg this]
        rfl

/-- Collecting values by key: one entry per key, in the order of first occurrence, with its values in
order. -/
theorem push_fold (es : List (Nat × Nat)) :
    es.foldl (fun m e => pushKey e.1 e.2 m) [] =
      ((es.map (·.1)).eraseDups).map (fun k => (k, (es.filter (fun e => decide (e.1 = k))).map (·.2))) := by
  induction es using List.reverseRecOn with
  | nil => rfl
  | append_singleton es e ih =>
    rw [List.foldl_append, ih, List.foldl_cons, List.foldl_nil]
    have hnd : ((es.map (·.1)).eraseDups).Nodup := by rw [← bump_keys]; exact bumps_nodup _
    rw [pushKey_map e.1 e.2 _ (fun k => (es.filter (fun e => decide (e.1 = k))).map (·.2)) hnd, List.map_append,
      List.eraseDups_append]
    simp only [List.mem_eraseDups, List.map_cons, List.map_nil, List.removeAll, List.filter_cons, List.filter_nil]
    by_cases hm : e.1 ∈ es.map (·.1)
    · rw [if_pos hm]
      have : (es.map (·.1)).elem e.1 = true := by simpa using hm
      rw [this]
      simp only [Bool.not_true, Bool.false_eq_true, if_false]
      rw [show ([] : List Nat).eraseDups = [] from rfl, List.append_nil]
      apply List.map_congr_left
      intro j _
      rw [List.filter_append, List.map_append]
      by_cases ej : j = e.1
      · subst ej; simp
      · simp [ej, Ne.symm ej]
    · rw [if_neg hm]
      have : (es.map (·.1)).elem e.1 = false := by simpa using hm
      rw [this]
      simp only [Bool.not_false, if_true]
      rw [show [e.1].eraseDups = [e.1] from rfl, List.map_append]
      congr 1
      · apply List.map_congr_left
        intro j hj
        rw [List.filter_append, List.map_append]
        have : e.1 ≠ j := by
          rintro rfl
          exact hm (List.mem_eraseDups.mp hj)
        simp [this]
      · have : es.filter (fun x => decide (x.1 = e.1)) = [] := by
          rw [List.filter_eq_nil_iff]
          intro x hx
          simp only [decide_eq_true_eq]
          intro h
          exact hm (h ▸ List.mem_map.mpr ⟨x, hx, rfl⟩)
        rw [List.map_cons, List.map_nil, List.filter_append, this]
        simp

/-- What `AccessPattern` collects: for each sampled object the times and the positions of its
requests. -/
theorem access_fold (ratio : Nat) (ns : List Note) (h : Timed ns) (hl : ns.length ≤ 0xfffffff1)
    (ht : ∀ n ∈ ns, n.rel ≤ 2147483647) :
    (Access.run ratio ns).rt = (((ns.filter (fun n => decide (n.id % ratio = 0))).map (fun n => (n.id, n.rel.toNat))).foldl (fun m e => pushKey e.1 e.2 m) []) ∧
      (Access.run ratio ns).vt = ((((ns.zipIdx 1).filter (fun n => decide (n.1.id % ratio = 0))).map (fun n => (n.1.id, n.2))).foldl (fun m e => pushKey e.1 e.2 m) []) ∧
      (Access.run ratio ns).seen = ns.length ∧ (Access.run ratio ns).start = if ns = [] then -1 else 0 := by
  unfold Access.run
  induction ns using List.reverseRecOn with
  | nil => exact ⟨rfl, rfl, rfl, rfl⟩
  | append_singleton ns n ih =>
    obtain ⟨h1, h2, h3⟩ := h.left
    have hn0 : 0 ≤ n.rel := h.nonneg n (by simp)
    have hnt := ht n (by simp)
    have hl' : ns.length + 1 ≤ 0xfffffff1 := by simpa using hl
    obtain ⟨i1, i2, i3, i4⟩ := ih h1 (by omega) (fun m hm => ht m (List.mem_append_left _ hm))
    rw [List.foldl_append, List.foldl_cons, List.foldl_nil]
    generalize ns.foldl (Access.add ratio) { seen := 0, start := -1, rt := [], vt := [] } = s at i1 i2 i3 i4 ⊢
    have hs : (if s.start = -1 then n.rel else s.start) = 0 := by
      rw [i4]
      by_cases he : ns = []
      · rw [if_pos he, if_pos rfl, h3 he]
      · rw [if_neg he, if_neg (by decide)]
    have hseen : ¬ s.seen > 0xfffffff0 := by omega
    have hne : ns ++ [n] ≠ [] := by simp
    unfold Access.add
    rw [if_neg hseen, if_neg hne]
    simp only [hs]
    rw [List.filter_append, List.map_append, List.foldl_append, List.zipIdx_append, List.filter_append, List.map_append, List.foldl_append]
    have hu : u32of (n.rel - 0) = n.rel.toNat := by rw [Int.sub_zero]; exact u32of_of hn0 hnt
    have hv : u32of ((s.seen + 1 : Nat) : Int) = 1 + ns.length := by unfold u32of; rw [i3]; omega
    by_cases hr : n.id % ratio = 0
    · rw [if_neg (by simpa using hr)]
      refine ⟨?_, ?_, by simp [i3], rfl⟩
      · rw [← i1, hu]; simp [hr]
      · rw [← i2]
        have hv' : u32of (s.seen + 1 : Int) = 1 + ns.length := by
          have : ((s.seen + 1 : Nat) : Int) = (s.seen : Int) + 1 := by push_cast; rfl
          rw [← this]; exact hv
        simp [hr, List.zipIdx, hv']
    · rw [if_pos (by simpa using hr)]
      refine ⟨?_, ?_, by simp [i3], rfl⟩
      · rw [← i1]; simp [hr]
      · rw [← i2]; simp [hr, List.zipIdx]

end Verif.Analyzer
