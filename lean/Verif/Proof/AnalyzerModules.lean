import Verif.Proof.AnalyzerStats

/-!
# The analyzer's modules, over any annotated requests
-/

namespace Verif.Analyzer
open Spec.TraceStats

/-! ## OpStat -/

theorem op_fold (ns : List Note) (hop : ∀ n ∈ ns, n.op ≤ opInvalid) (hl : ns.length < two64) :
    ∃ s, OpStat.run ns = .ok s ∧ s.cnt.length = 16 ∧
      (∀ o, o ≤ opInvalid → s.cnt[o]? = some (ns.countP (fun n => decide (n.op = o)))) ∧
      s.over = ns.countP (·.overwrite) := by
  unfold OpStat.run
  induction ns using List.reverseRecOn with
  | nil =>
    refine ⟨_, rfl, rfl, fun o ho => ?_, rfl⟩
    show (List.replicate 16 0)[o]? = _
    rw [List.getElem?_replicate, if_pos (by unfold opInvalid at ho; omega)]
    rfl
  | append_singleton ns n ih =>
    have hl' : ns.length + 1 < two64 := by simpa using hl
    obtain ⟨s, h1, h2, h3, h4⟩ := ih (fun m hm => hop m (List.mem_append_left _ hm)) (by omega)
    rw [List.foldl_append, h1, List.foldl_cons, List.foldl_nil, Res.bind_ok]
    unfold OpStat.add
    rw [if_pos (hop n (by simp))]
    refine ⟨_, rfl, by simpa using h2, fun o ho => ?_, ?_⟩
    · have hle : ns.countP (fun m => decide (m.op = o)) ≤ ns.length := List.countP_le_length
      show (s.cnt.modify n.op _)[o]? = _
      rw [List.getElem?_modify, h3 o ho, List.countP_append]
      by_cases e : n.op = o
      · simp only [e, if_true, Option.map_eq_map, Option.map_some, Option.some.injEq]
        rw [Nat.mod_eq_of_lt (by omega)]
        simp [e]
      · simp [e]
    · have hle : ns.countP (·.overwrite) ≤ ns.length := List.countP_le_length
      show (if n.overwrite then (s.over + 1) % two64 else s.over) = _
      rw [h4, List.countP_append]
      by_cases e : n.overwrite
      · rw [if_pos e, Nat.mod_eq_of_lt (by omega)]; simp [e]
      · rw [if_neg e]; simp [e]

/-! ## TtlStat -/

theorem bump_keys {κ : Type} [DecidableEq κ] (ks : List κ) :
    (ks.foldl (fun m k => bumpKey k m) []).map (·.1) = ks.eraseDups := by
  induction ks using List.reverseRecOn with
  | nil => rfl
  | append_singleton ks a ih =>
    rw [List.foldl_append, List.foldl_cons, List.foldl_nil, bumpKey_keys, ih, List.eraseDups_append]
    have hm : a ∈ ks.eraseDups ↔ a ∈ ks := List.mem_eraseDups
    simp only [List.removeAll, List.filter_cons, List.filter_nil]
    by_cases h : a ∈ ks
    · simp [List.elem_eq_contains, h]
    · have : ks.elem a = false := by simpa using h
      rw [if_neg (mt hm.mp h)]
      simp only [this, Bool.not_false, if_true]
      rfl

theorem ttl_fold (ns : List Note) :
    (TtlStat.run ns).cnt = ((ns.filter (fun n => decide (n.ttl > 0))).map (·.ttl)).foldl (fun m k => bumpKey k m) [] ∧
      (TtlStat.run ns).tooMany = decide (((ns.filter (fun n => decide (n.ttl > 0))).map (·.ttl)).eraseDups.length > 1000000) := by
  unfold TtlStat.run
  induction ns using List.reverseRecOn with
  | nil => exact ⟨rfl, by decide +kernel⟩
  | append_singleton ns n ih =>
    obtain ⟨h1, h2⟩ := ih
    rw [List.foldl_append, List.foldl_cons, List.foldl_nil]
    generalize ns.foldl TtlStat.add { cnt := [], tooMany := false } = s at h1 h2 ⊢
    rw [List.filter_append, List.map_append]
    unfold TtlStat.add
    by_cases ht : n.ttl > 0
    · rw [if_pos ht]
      have e1 : (([n].filter (fun n => decide (n.ttl > 0))).map (·.ttl)) = [n.ttl] := by simp [ht]
      rw [e1]
      generalize ((ns.filter (fun n => decide (n.ttl > 0))).map (·.ttl)) = ks at h1 h2 ⊢
      rw [List.foldl_append, List.foldl_cons, List.foldl_nil, ← h1]
      have hk : s.cnt.map (·.1) = ks.eraseDups := by rw [h1, bump_keys]
      have hlen : s.cnt.length = ks.eraseDups.length := by rw [← hk, List.length_map]
      have hmem : n.ttl ∈ s.cnt.map (·.1) ↔ n.ttl ∈ ks := by rw [hk, List.mem_eraseDups]
      have hnew : (ks ++ [n.ttl]).eraseDups = (bumpKey n.ttl s.cnt).map (·.1) := by
        rw [← bump_keys, List.foldl_append, List.foldl_cons, List.foldl_nil, ← h1]
      cases hl : s.cnt.lookup n.ttl with
      | none =>
        have hni := (lookup_none_iff _ _).mp hl
        refine ⟨rfl, ?_⟩
        rw [hnew, bumpKey_keys, if_neg hni]
        simp only [List.length_append, List.length_map, List.length_cons, List.length_nil, h2, ← hlen]
        by_cases h3 : s.cnt.length > 1000000
        · have : s.cnt.length + (0 + 1) > 1000000 := by omega
          simp [h3]
          omega
        · simp [h3]
      | some v =>
        have hi : n.ttl ∈ s.cnt.map (·.1) := by
          by_contra h
          rw [(lookup_none_iff _ _).mpr h] at hl
          exact absurd hl (by simp)
        refine ⟨rfl, ?_⟩
        rw [hnew, bumpKey_keys, if_pos hi, List.length_map, hlen]
        exact h2
    · rw [if_neg ht]
      have e1 : (([n].filter (fun n => decide (n.ttl > 0))).map (·.ttl)) = [] := by simp [ht]
      rw [e1, List.append_nil]
      exact ⟨h1, h2⟩

/-! ## Windowed counters over notes -/

theorem winOf_next {α β : Type} {w : Nat} (a0 zero : α) (count : α → β → α) (es : List (Nat × β)) :
    (winOf w a0 zero count es).next ≠ -1 := by
  unfold winOf
  simp only [ne_eq]
  omega

theorem winOf_nil {α β : Type} {w : Nat} (a0 zero : α) (count : α → β → α) :
    winOf w a0 zero count ([] : List (Nat × β)) = { next := (w : Int), cur := a0, out := [] } := by
  simp [winOf, charged, cell]

/-- Time-ordered notes, starting at time 0. -/
structure Timed (ns : List Note) : Prop where
  sorted : ns.Pairwise (fun a b => a.rel ≤ b.rel)
  zero : ∀ n, ns.head? = some n → n.rel = 0

theorem Timed.nonneg {ns : List Note} (h : Timed ns) : ∀ n ∈ ns, 0 ≤ n.rel := by
  cases ns with
  | nil => simp
  | cons a ns =>
    have ha := h.zero a rfl
    have hs := List.pairwise_cons.mp h.sorted
    intro n hn
    rw [List.mem_cons] at hn
    rcases hn with rfl | hn
    · omega
    · have := hs.1 n hn; omega

theorem Timed.left {ns : List Note} {n : Note} (h : Timed (ns ++ [n])) : Timed ns ∧
    (∀ m ∈ ns, m.rel ≤ n.rel) ∧ (ns = [] → n.rel = 0) := by
  obtain ⟨h1, _, h3⟩ := List.pairwise_append.mp h.sorted
  refine ⟨⟨h1, fun m hm => ?_⟩, fun m hm => h3 m hm n (by simp), ?_⟩
  · apply h.zero
    cases ns with
    | nil => simp at hm
    | cons a ns => exact hm
  · rintro rfl; exact h.zero n rfl

theorem win_fold {α : Type} {w : Nat} (hw : 0 < w) (a0 zero : α) (count : α → Note → α) (ns : List Note)
    (h : Timed ns) (hne : ns ≠ []) :
    ns.foldl (fun s n => s >>= fun s => s.add w zero count n) (.ok ({ next := -1, cur := a0, out := [] } : Win α)) =
      Except.ok (winOf w a0 zero count (ns.map (fun n => (n.rel.toNat, n)))) := by
  induction ns using List.reverseRecOn with
  | nil => exact absurd rfl hne
  | append_singleton ns n ih =>
    obtain ⟨h1, h2, h3⟩ := h.left
    have hn0 : 0 ≤ n.rel := h.nonneg n (by simp)
    have key : ∀ s : Win α, (if s.next = -1 then { s with next := n.rel + w } else s) = winOf w a0 zero count (ns.map (fun n => (n.rel.toNat, n))) →
        s.add w zero count n = .ok (winOf w a0 zero count ((ns ++ [n]).map (fun n => (n.rel.toNat, n)))) := by
      intro s hs
      unfold Win.add
      simp only [hs]
      have e : n.rel = ((n.rel.toNat : Nat) : Int) := by omega
      conv => lhs; rw [e]
      simp only [Int.toNat_natCast]
      rw [List.map_append]
      apply winOf_append hw
      · intro y hy
        rw [List.mem_map] at hy
        obtain ⟨m, hm, rfl⟩ := hy
        have := h2 m hm
        simp only
        omega
      · rw [List.pairwise_map]
        exact h1.sorted.imp (by intro a b hab; omega)
    rw [List.foldl_append]
    by_cases he : ns = []
    · subst he
      rw [List.foldl_nil, List.foldl_cons, List.foldl_nil, Res.bind_ok]
      apply key
      rw [List.map_nil, winOf_nil, if_pos rfl, h3 rfl]
      simp
    · rw [ih h1 he, List.foldl_cons, List.foldl_nil, Res.bind_ok]
      apply key
      rw [if_neg (winOf_next _ _ _ _)]

theorem charged_map {β γ : Type} (w : Nat) (f : β → γ) : ∀ (l : List (Nat × β)) (k : Nat),
    charged w k (l.map (fun y => (y.1, f y.2))) = (charged w k l).map (fun y => (y.1, f y.2)) := by
  intro l
  induction l with
  | nil => intro k; rfl
  | cons a l ih => intro k; simp only [List.map_cons, charged, ih]

/-- How many events are charged to a window: those before the last one that fall in it, and one more
for the first window. -/
theorem charged_count {β : Type} (w : Nat) : ∀ (l : List (Nat × β)) (k0 k : Nat), l ≠ [] →
    (charged w k0 l).countP (fun y => decide (y.1 = k)) =
      l.dropLast.countP (fun y => decide (y.1 / w = k)) + (if k0 = k then 1 else 0) := by
  intro l
  induction l with
  | nil => intro _ _ h; exact absurd rfl h
  | cons a l ih =>
    intro k0 k _
    obtain ⟨a1, a2⟩ := a
    simp only [charged, List.countP_cons, decide_eq_true_eq]
    cases l with
    | nil => simp [charged]
    | cons b l =>
      rw [ih (a1 / w) k (by simp), List.dropLast_cons_cons, List.countP_cons]
      simp only [decide_eq_true_eq]

/-! ## ReqRate -/

theorem rate_fold (ns : List Note) :
    ns.foldl Rate.count Rate.zero = { req := ns.length % two32, byte := (ns.map (·.size)).sum % two64, obj := ns.countP (·.first) % two32, cold := ns.countP (·.compulsory) % two32 } := by
  induction ns using List.reverseRecOn with
  | nil => rfl
  | append_singleton ns n ih =>
    rw [List.foldl_append, ih, List.foldl_cons, List.foldl_nil]
    unfold Rate.count
    simp only [Rate.mk.injEq, List.length_append, List.length_cons, List.length_nil, List.map_append,
      List.sum_append, List.countP_append, List.map_cons, List.map_nil, List.sum_cons, List.sum_nil,
      List.countP_cons, List.countP_nil]
    refine ⟨by rw [Nat.mod_add_mod], by rw [Nat.mod_add_mod]; rfl, ?_, ?_⟩
    · by_cases h : n.first
      · simp only [h, if_true]; rw [Nat.mod_add_mod]
      · simp [h]
    · by_cases h : n.compulsory
      · simp only [h, if_true]; rw [Nat.mod_add_mod]
      · simp [h]

/-! ## Vectors of counters -/

theorem vecIncr_getD (extra : Nat) (he : 0 < extra) (v : List Nat) (pos b : Nat) :
    (vecIncr extra v pos).getD b 0 = if b = pos then (v.getD b 0 + 1) % two32 else v.getD b 0 := by
  unfold vecIncr
  rw [List.getD_eq_getElem?_getD, List.getElem?_modify]
  have key : ∀ v' : List Nat, pos < v'.length → (∀ b, v'.getD b 0 = v.getD b 0) →
      (((fun a => if pos = b then (a + 1) % two32 else a) <$> v'[b]?).getD 0) =
        if b = pos then (v.getD b 0 + 1) % two32 else v.getD b 0 := by
    intro v' hp hv
    by_cases e : b = pos
    · subst e
      rw [← hv b, List.getD_eq_getElem?_getD, List.getElem?_eq_getElem hp]
      simp
    · rw [if_neg e, ← hv b, List.getD_eq_getElem?_getD]
      cases v'[b]? <;> simp [Ne.symm e]
  apply key
  · split
    · rw [List.length_append, List.length_replicate]; omega
    · omega
  · intro b
    split
    · rw [List.getD_eq_getElem?_getD, List.getD_eq_getElem?_getD, List.getElem?_append]
      split
      · rfl
      · rename_i h1 h2
        rw [List.getElem?_replicate, List.getElem?_eq_none (by omega)]
        split <;> rfl
    · rfl

/-! ## SizeDistribution -/

theorem sizeWin_fold (bucket : Nat → Nat) (ns : List Note) (c : SizeWin) (b : Nat) :
    ((ns.foldl (SizeWin.count bucket) c).req.getD b 0) % two32 =
        (c.req.getD b 0 + ns.countP (fun n => decide (bucket n.size = b))) % two32 ∧
      ((ns.foldl (SizeWin.count bucket) c).obj.getD b 0) % two32 =
        (c.obj.getD b 0 + ns.countP (fun n => n.first && decide (bucket n.size = b))) % two32 := by
  induction ns generalizing c with
  | nil => exact ⟨rfl, rfl⟩
  | cons n ns ih =>
    rw [List.foldl_cons]
    obtain ⟨h1, h2⟩ := ih (SizeWin.count bucket c n)
    rw [h1, h2]
    have hpad : ∀ v : List Nat, ∀ m, (v ++ List.replicate m 0).getD b 0 = v.getD b 0 := by
      intro v m
      rw [List.getD_eq_getElem?_getD, List.getD_eq_getElem?_getD, List.getElem?_append]
      split
      · rfl
      · rename_i h
        rw [List.getElem?_replicate, List.getElem?_eq_none (by omega)]
        split <;> rfl
    constructor
    · have e : (SizeWin.count bucket c n).req = vecIncr 8 c.req (bucket n.size) := rfl
      rw [e, vecIncr_getD 8 (by decide), List.countP_cons]
      by_cases h : b = bucket n.size
      · rw [if_pos h]
        simp only [h, decide_true, if_true]
        rw [Nat.mod_add_mod]
        congr 1
        omega
      · rw [if_neg h]
        simp [Ne.symm h]
    · have e : (SizeWin.count bucket c n).obj = if n.first then vecIncr 8 c.obj (bucket n.size) else if c.obj.length ≤ bucket n.size then c.obj ++ List.replicate (bucket n.size + 8 - c.obj.length) 0 else c.obj := rfl
      rw [e, List.countP_cons]
      by_cases hf : n.first
      · rw [if_pos hf, vecIncr_getD 8 (by decide)]
        by_cases h : b = bucket n.size
        · rw [if_pos h]
          simp only [hf, h, decide_true, Bool.and_self, if_true]
          rw [Nat.mod_add_mod]
          congr 1
          omega
        · rw [if_neg h]
          simp [Ne.symm h]
      · rw [if_neg hf]
        simp only [hf, Bool.false_and]
        split
        · rw [hpad]; simp
        · simp

theorem lt_vecIncr (extra : Nat) (v : List Nat) (pos : Nat) (h : ∀ x ∈ v, x < two32) :
    ∀ x ∈ vecIncr extra v pos, x < two32 := by
  intro x hx
  unfold vecIncr at hx
  rw [List.mem_iff_getElem?] at hx
  obtain ⟨i, hi⟩ := hx
  rw [List.getElem?_modify] at hi
  have h2 : ∀ y ∈ (if v.length ≤ pos then v ++ List.replicate (pos + extra - v.length) 0 else v), y < two32 := by
    intro y hy
    split at hy
    · rw [List.mem_append] at hy
      rcases hy with hy | hy
      · exact h y hy
      · rw [(List.mem_replicate.mp hy).2]; decide
    · exact h y hy
  cases hv : (if v.length ≤ pos then v ++ List.replicate (pos + extra - v.length) 0 else v)[i]? with
  | none => rw [hv] at hi; simp at hi
  | some y =>
    rw [hv] at hi
    have hy := h2 y (List.mem_of_getElem? hv)
    simp only [Option.map_eq_map, Option.map_some, Option.some.injEq] at hi
    rw [← hi]
    split
    · exact Nat.mod_lt _ (by decide)
    · exact hy

theorem getD_lt {v : List Nat} (h : ∀ x ∈ v, x < two32) (b : Nat) : v.getD b 0 < two32 := by
  rw [List.getD_eq_getElem?_getD]
  cases hv : v[b]? with
  | none => decide
  | some y => exact h y (List.mem_of_getElem? hv)

theorem sizeWin_lt (bucket : Nat → Nat) (ns : List Note) (c : SizeWin)
    (h1 : ∀ x ∈ c.req, x < two32) (h2 : ∀ x ∈ c.obj, x < two32) :
    (∀ x ∈ (ns.foldl (SizeWin.count bucket) c).req, x < two32) ∧
      ∀ x ∈ (ns.foldl (SizeWin.count bucket) c).obj, x < two32 := by
  induction ns generalizing c with
  | nil => exact ⟨h1, h2⟩
  | cons n ns ih =>
    rw [List.foldl_cons]
    apply ih
    · exact lt_vecIncr _ _ _ h1
    · show ∀ x ∈ (if n.first then vecIncr 8 c.obj (bucket n.size) else if c.obj.length ≤ bucket n.size then c.obj ++ List.replicate (bucket n.size + 8 - c.obj.length) 0 else c.obj), x < two32
      split
      · exact lt_vecIncr _ _ _ h2
      · split
        · intro x hx
          rw [List.mem_append] at hx
          rcases hx with hx | hx
          · exact h2 x hx
          · rw [(List.mem_replicate.mp hx).2]; decide
        · exact h2

/-- `SizeDistribution` is its two counters and its windows, independently. -/
theorem size_fold {w : Nat} (hw : 0 < w) (bucket : Nat → Nat) (ns : List Note) (h : Timed ns) (hne : ns ≠ []) :
    SizeStat.run bucket w ns = .ok { reqCnt := (ns.map (fun n => n.size % two32)).foldl (fun m k => bumpKey k m) [], objCnt := ((ns.filter (·.compulsory)).map (fun n => n.size % two32)).foldl (fun m k => bumpKey k m) [], win := winOf w { req := [], obj := [] } { req := List.replicate 20 0, obj := List.replicate 20 0 } (SizeWin.count bucket) (ns.map (fun n => (n.rel.toNat, n))) } := by
  have key : ∀ ms : List Note, ∀ win, ms.foldl (fun s n => s >>= fun s => s.add w { req := List.replicate 20 0, obj := List.replicate 20 0 } (SizeWin.count bucket) n) (.ok ({ next := -1, cur := { req := [], obj := [] }, out := [] } : Win SizeWin)) = Except.ok win →
      SizeStat.run bucket w ms = .ok { reqCnt := (ms.map (fun n => n.size % two32)).foldl (fun m k => bumpKey k m) [], objCnt := ((ms.filter (·.compulsory)).map (fun n => n.size % two32)).foldl (fun m k => bumpKey k m) [], win := win } := by
    intro ms
    unfold SizeStat.run
    induction ms using List.reverseRecOn with
    | nil => intro win hwin; simp only [List.foldl_nil, Except.ok.injEq] at hwin; subst hwin; rfl
    | append_singleton ms n ih =>
      intro win hwin
      rw [List.foldl_append, List.foldl_cons, List.foldl_nil] at hwin
      obtain ⟨win1, h1, h2⟩ := Res.bind_eq_ok.mp hwin
      rw [List.foldl_append, ih win1 h1, List.foldl_cons, List.foldl_nil, Res.bind_ok]
      unfold SizeStat.add
      rw [h2, Res.bind_ok]
      simp only [List.map_append, List.foldl_append, List.filter_append, List.map_cons, List.map_nil, List.foldl_cons, List.foldl_nil]
      by_cases hc : n.compulsory <;> simp [hc]
  exact key ns _ (win_fold hw _ _ _ ns h hne)

end Verif.Analyzer
