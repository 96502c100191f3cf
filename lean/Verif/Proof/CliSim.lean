import Verif.Spec.Cli
import Verif.Proof.SimPool
import Verif.Proof.TraceConv
import Mathlib.Data.List.Induction
/-!
# Running one cache, the working set, the trace filter
-/

namespace Verif.Cli
open Verif Verif.Simulator Verif.Spec.Sim Verif.Spec.Cli

variable {σ : Type}

/-! ## `simulate` -/

/-- what a measured request does to the counters -/
def tick (interval start : Int) (k : Tally) (x : Item × Bool) : Tally := (k.count x.2 x.1.req.size).report interval (x.1.time - start)

theorem simLoop_eq (C : Cache σ) (interval warm start : Int) : ∀ (l : List Item) (seed : Nat) (s : σ) (k : Tally),
    simLoop C interval warm start l seed s k = (serve C seed s l >>= fun r =>
      .ok (r.2.1, r.2.2, ((l.zip r.1).filter (fun x => decide (warm < x.1.time - start))).foldl (tick interval start) k)) := by
  intro l
  induction l with
  | nil => intro seed s k; rfl
  | cons it l ih =>
    intro seed s k
    unfold simLoop serve
    cases hg : C.get seed s it.req with
    | error e => rfl
    | ok r =>
      simp only [Res.bind_ok]
      by_cases hw : it.time - start ≤ warm
      · rw [if_pos hw, ih]
        cases hs : serve C r.2.1 r.2.2 l with
        | error e => rfl
        | ok q =>
          simp only [Res.bind_ok, List.zip_cons_cons, List.filter_cons, show ¬ warm < it.time - start from by omega, decide_false, Bool.false_eq_true, if_false]
      · rw [if_neg hw, ih]
        cases hs : serve C r.2.1 r.2.2 l with
        | error e => rfl
        | ok q =>
          simp only [Res.bind_ok, List.zip_cons_cons, List.filter_cons, show warm < it.time - start from by omega, decide_true, if_true, List.foldl_cons]
          rfl

theorem firstTime_eq (tr : List Item) : firstTime tr = startOf tr := by cases tr <;> rfl

theorem simulate_eq (C : Cache σ) (interval warm : Int) (seed : Nat) (s : σ) (tr : List Item) :
    simulate C interval warm seed s tr = (serve C seed s tr >>= fun r =>
      .ok (r.2.1, r.2.2, (measured warm tr r.1).foldl (tick interval (startOf tr)) { lastTs := warm })) := by
  unfold simulate measured
  rw [simLoop_eq, firstTime_eq]

theorem report_counts (k : Tally) (interval t : Int) : (k.report interval t).req = k.req ∧ (k.report interval t).miss = k.miss ∧
    (k.report interval t).reqByte = k.reqByte ∧ (k.report interval t).missByte = k.missByte := by
  unfold Tally.report
  split <;> exact ⟨rfl, rfl, rfl, rfl⟩

theorem misses_concat (m : List (Item × Bool)) (x : Item × Bool) : misses (m ++ [x]) = misses m ++ if x.2 then [] else [x] := by
  unfold misses
  rw [List.filter_append]
  cases h : x.2 <;> simp [h]

theorem bytes_append (a b : List (Item × Bool)) : bytes (a ++ b) = bytes a + bytes b := by
  unfold bytes
  simp

theorem fold_counts (interval start : Int) (k0 : Tally) (m : List (Item × Bool)) :
    (m.foldl (tick interval start) k0).req = k0.req + m.length ∧ (m.foldl (tick interval start) k0).miss = k0.miss + (misses m).length ∧
    (m.foldl (tick interval start) k0).reqByte = k0.reqByte + bytes m ∧ (m.foldl (tick interval start) k0).missByte = k0.missByte + bytes (misses m) := by
  induction m using List.reverseRecOn with
  | nil => exact ⟨rfl, rfl, rfl, rfl⟩
  | append_singleton m x ih =>
    obtain ⟨h1, h2, h3, h4⟩ := ih
    rw [List.foldl_append]
    simp only [List.foldl_cons, List.foldl_nil]
    obtain ⟨r1, r2, r3, r4⟩ := report_counts ((m.foldl (tick interval start) k0).count x.2 x.1.req.size) interval (x.1.time - start)
    rw [misses_concat]
    refine ⟨r1.trans ?_, r2.trans ?_, r3.trans ?_, r4.trans ?_⟩
    · show (m.foldl (tick interval start) k0).req + 1 = _
      rw [h1]; simp; omega
    · show (if x.2 then (m.foldl (tick interval start) k0).miss else (m.foldl (tick interval start) k0).miss + 1) = _
      rw [h2]
      cases x.2 <;> simp <;> omega
    · show (m.foldl (tick interval start) k0).reqByte + x.1.req.size = _
      rw [h3, bytes_append]; simp [bytes]; omega
    · show (if x.2 then (m.foldl (tick interval start) k0).missByte else (m.foldl (tick interval start) k0).missByte + x.1.req.size) = _
      rw [h4, bytes_append]
      cases x.2 <;> simp [bytes] <;> omega

/-- the last report before now, or the end of the warm-up -/
structure RInv (interval warm start : Int) (m : List (Item × Bool)) (k : Tally) : Prop where
  good : GoodReports interval warm start m k.reports
  lastNone : k.reports = [] → k.lastTs = warm ∧ k.lastReq = 0 ∧ k.lastMiss = 0
  lastSome : ∀ r, k.reports.getLast? = some r → k.lastTs = r.clock ∧ k.lastReq = r.req ∧ k.lastMiss = r.miss

theorem take_append_one {α : Type} (m : List α) (x : α) (i : Nat) (h : i < m.length) : (m ++ [x]).take (i + 1) = m.take (i + 1) := by
  rw [List.take_append_of_le_length (by omega)]

theorem get_append_one {α : Type} {m : List α} {x y : α} {i : Nat} (h : (m ++ [x])[i]? = some y) : m[i]? = some y ∧ i < m.length ∨ i = m.length ∧ y = x := by
  by_cases hi : i < m.length
  · rw [List.getElem?_append_left hi] at h
    exact .inl ⟨h, hi⟩
  · rw [List.getElem?_append_right (by omega)] at h
    cases hk : i - m.length with
    | zero =>
      rw [hk] at h
      simp at h
      exact .inr ⟨by omega, h.symm⟩
    | succ n => rw [hk] at h; simp at h

theorem fold_reports {interval warm start : Int} (hi0 : 0 ≤ interval) (hi1 : interval < 9223372036854775808) (hw0 : -9223372036854775808 ≤ warm) :
    ∀ (m : List (Item × Bool)), m.Pairwise (fun a b => a.1.time ≤ b.1.time) → (∀ x ∈ m, warm < x.1.time - start ∧ x.1.time - start - warm < 18446744073709551616) →
    RInv interval warm start m (m.foldl (tick interval start) { lastTs := warm }) := by
  intro m
  induction m using List.reverseRecOn with
  | nil =>
    intro _ _
    exact ⟨⟨by simp, by simp, by simp, by simp, by simp, by simp⟩, fun _ => ⟨rfl, rfl, rfl⟩, by simp⟩
  | append_singleton m x ih =>
    intro hs hb
    have hs' := List.pairwise_append.1 hs
    obtain ⟨hg, hn, hl⟩ := ih hs'.1 (fun y hy => hb y (List.mem_append_left _ hy))
    rw [List.foldl_append]
    simp only [List.foldl_cons, List.foldl_nil]
    obtain ⟨c1, c2, _, _⟩ := fold_counts interval start { lastTs := warm } m
    obtain ⟨d1, d2, _, _⟩ := fold_counts interval start { lastTs := warm } (m ++ [x])
    generalize hk : m.foldl (tick interval start) { lastTs := warm } = k at *
    have hx := hb x (by simp)
    have hlast : warm ≤ k.lastTs ∧ k.lastTs ≤ x.1.time - start := by
      rcases List.eq_nil_or_concat' k.reports with he | ⟨t, r, he⟩
      · rw [(hn he).1]; omega
      · have hr : k.reports.getLast? = some r := by rw [he]; simp
        rw [(hl r hr).1]
        have hm : r ∈ k.reports := List.mem_of_getLast? hr
        have h1 := hg.early r hm
        obtain ⟨i, y, hy, hc, _⟩ := hg.real r hm
        have h2 := hs'.2.2 y (List.mem_of_getElem? hy) x (by simp)
        omega
    -- counters right after the request
    have hreq : (k.count x.2 x.1.req.size).req = m.length + 1 := by
      show k.req + 1 = _
      rw [c1]; simp
    have hmiss : (k.count x.2 x.1.req.size).miss = (misses (m ++ [x])).length := by
      rw [misses_concat]
      show (if x.2 then k.miss else k.miss + 1) = _
      rw [c2]
      cases x.2 <;> simp
    have hold : ∀ r ∈ k.reports, ∃ i y, (m ++ [x])[i]? = some y ∧ r.clock = y.1.time - start ∧ r.req = i + 1 ∧ r.miss = (misses ((m ++ [x]).take (i + 1))).length := by
      intro r hr
      obtain ⟨i, y, h1, h2, h3, h4⟩ := hg.real r hr
      have hi : i < m.length := by
        by_contra hc
        rw [List.getElem?_eq_none (by omega)] at h1
        cases h1
      refine ⟨i, y, ?_, h2, h3, ?_⟩
      · rw [List.getElem?_append_left hi]; exact h1
      · rw [take_append_one m x i hi]; exact h4
    have hreqle : ∀ r ∈ k.reports, r.req ≤ m.length := by
      intro r hr
      obtain ⟨i, y, h1, _, h3, _⟩ := hg.real r hr
      by_contra hc
      rw [List.getElem?_eq_none (by omega)] at h1
      cases h1
    have hcond : ((x.1.time - start - (k.count x.2 x.1.req.size).lastTs) % 18446744073709551616 ≥ interval % 18446744073709551616 ∧ x.1.time - start ≠ 0) ↔
        (k.lastTs + interval ≤ x.1.time - start ∧ x.1.time ≠ start) := by
      show ((x.1.time - start - k.lastTs) % 18446744073709551616 ≥ interval % 18446744073709551616 ∧ x.1.time - start ≠ 0) ↔ _
      rw [Int.emod_eq_of_lt (a := x.1.time - start - k.lastTs) (by omega) (by omega), Int.emod_eq_of_lt (a := interval) hi0 (by omega)]
      omega
    unfold tick Tally.report
    by_cases hc : k.lastTs + interval ≤ x.1.time - start ∧ x.1.time ≠ start
    · rw [if_pos (hcond.2 hc)]
      set new : Report := ⟨x.1.time - start, (k.count x.2 x.1.req.size).req, (k.count x.2 x.1.req.size).miss,
        (k.count x.2 x.1.req.size).req - (k.count x.2 x.1.req.size).lastReq, (k.count x.2 x.1.req.size).miss - (k.count x.2 x.1.req.size).lastMiss⟩ with hnew
      have hclock : ∀ r ∈ k.reports, r.clock ≤ k.lastTs := by
        intro r hr
        rcases List.eq_nil_or_concat' k.reports with he | ⟨t, q, he⟩
        · rw [he] at hr; cases hr
        · have hq : k.reports.getLast? = some q := by rw [he]; simp
          rw [(hl q hq).1]
          have ho := hg.order
          rw [he] at ho hr
          rcases List.mem_append.1 hr with h | h
          · have := (List.pairwise_append.1 ho).2.2 r h q (by simp)
            omega
          · simp at h; rw [h]
      refine ⟨⟨?_, ?_, ?_, ?_, ?_, ?_⟩, ?_, ?_⟩
      · intro r hr
        rcases List.mem_append.1 hr with h | h
        · exact hold r h
        · simp only [List.mem_singleton] at h
          subst h
          refine ⟨m.length, x, by simp, rfl, hreq, ?_⟩
          show (k.count x.2 x.1.req.size).miss = _
          rw [hmiss, List.take_of_length_le (by simp)]
      · intro r hr
        show r.dReq = r.req ∧ r.dMiss = r.miss
        cases he : k.reports with
        | nil =>
          have hr' : (k.reports ++ [new]).head? = some r := hr
          rw [he] at hr'
          simp at hr'
          subst hr'
          obtain ⟨_, e2, e3⟩ := hn he
          exact ⟨by show (k.count x.2 x.1.req.size).req - k.lastReq = _; rw [e2]; rfl, by show (k.count x.2 x.1.req.size).miss - k.lastMiss = _; rw [e3]; rfl⟩
        | cons a t =>
          have hr' : (k.reports ++ [new]).head? = some r := hr
          rw [he] at hr'
          exact hg.first r (by rw [he]; simpa using hr')
      · intro i q r hq hr
        have hq' : (k.reports ++ [new])[i]? = some q := hq
        have hr' : (k.reports ++ [new])[i + 1]? = some r := hr
        rcases get_append_one hr' with ⟨h1, h2⟩ | ⟨h1, h2⟩
        · rw [List.getElem?_append_left (by omega)] at hq'
          exact hg.delta i q r hq' h1
        · rw [List.getElem?_append_left (by omega)] at hq'
          have hgl : k.reports.getLast? = some q := by
            rw [List.getLast?_eq_getElem?, ← h1]
            exact hq'
          obtain ⟨_, e2, e3⟩ := hl q hgl
          subst h2
          exact ⟨by show (k.count x.2 x.1.req.size).req - k.lastReq = _; rw [e2], by show (k.count x.2 x.1.req.size).miss - k.lastMiss = _; rw [e3]⟩
      · show (k.reports ++ [new]).Pairwise _
        rw [List.pairwise_append]
        refine ⟨hg.order, by simp, ?_⟩
        intro a ha b hb'
        simp only [List.mem_singleton] at hb'
        subst hb'
        refine ⟨?_, ?_⟩
        · show a.req < (k.count x.2 x.1.req.size).req
          have := hreqle a ha
          omega
        · show a.clock + interval ≤ x.1.time - start
          have := hclock a ha
          omega
      · intro r hr
        rcases List.mem_append.1 hr with h | h
        · exact hg.early r h
        · simp only [List.mem_singleton] at h
          subst h
          show warm + interval ≤ x.1.time - start
          omega
      · intro i y hy h1 h2
        rcases get_append_one hy with ⟨h3, h4⟩ | ⟨h3, h4⟩
        · obtain ⟨r, hr, h5⟩ := hg.complete i y h3 h1 h2
          exact ⟨r, List.mem_append_left _ hr, h5⟩
        · exact ⟨new, by simp, .inl (by show (k.count x.2 x.1.req.size).req = _; omega)⟩
      · intro h
        simp at h
      · intro r hr
        have hr' : (k.reports ++ [new]).getLast? = some r := hr
        simp at hr'
        subst hr'
        exact ⟨rfl, rfl, rfl⟩
    · rw [if_neg (fun h => hc (hcond.1 h))]
      refine ⟨⟨hold, hg.first, hg.delta, hg.order, hg.early, ?_⟩, hn, hl⟩
      intro i y hy h1 h2
      rcases get_append_one hy with ⟨h3, h4⟩ | ⟨h3, h4⟩
      · exact hg.complete i y h3 h1 h2
      · subst h4
        rcases List.eq_nil_or_concat' k.reports with he | ⟨t, q, he⟩
        · have := (hn he).1
          omega
        · have hq : k.reports.getLast? = some q := by rw [he]; simp
          have hm : q ∈ k.reports := List.mem_of_getLast? hq
          have := (hl q hq).1
          have := hreqle q hm
          exact ⟨q, hm, .inr ⟨by omega, by omega⟩⟩

/-! ## The working set -/

def wssStep (f : Nat) (p : List ObjId × Nat × Nat) (it : Item) : List ObjId × Nat × Nat :=
  if f > 1 ∧ it.req.id % f ≠ 0 then p else if it.req.id ∈ p.1 then p else (it.req.id :: p.1, p.2.1 + 1, p.2.2 + it.req.size)

theorem wssLoop_eq (f : Nat) : ∀ (l : List Item) (seen : List ObjId) (o b : Nat), wssLoop f l seen o b = (l.foldl (wssStep f) (seen, o, b)).2 := by
  intro l
  induction l with
  | nil => intros; rfl
  | cons it l ih =>
    intro seen o b
    unfold wssLoop
    rw [List.foldl_cons]
    unfold wssStep
    by_cases h : f > 1 ∧ it.req.id % f ≠ 0
    · rw [if_pos h, if_pos h]; exact ih ..
    · rw [if_neg h, if_neg h]
      by_cases h2 : it.req.id ∈ seen
      · rw [if_pos h2, if_pos h2]; exact ih ..
      · rw [if_neg h2, if_neg h2]; exact ih ..

theorem firsts_concat (l : List Item) (x : Item) : firsts (l ++ [x]) = firsts l ++ if x.req.id ∈ l.map (fun it => it.req.id) then [] else [x] := by
  unfold firsts
  rw [List.zipIdx_append, List.filter_append, List.map_append]
  congr 1
  · apply congrArg
    apply List.filter_congr
    rintro ⟨a, i⟩ hm
    have hi : i < l.length := by
      have := List.mem_zipIdx hm
      omega
    simp only
    rw [List.take_append_of_le_length (by omega)]
  · simp only [List.zipIdx_cons, List.zipIdx_nil, Nat.zero_add, List.filter_cons, List.filter_nil]
    rw [List.take_append_of_le_length (le_refl _), List.take_length]
    by_cases h : x.req.id ∈ l.map (fun it => it.req.id)
    · simp [h]
    · simp [h]

theorem wss_fold (f : Nat) (l : List Item) : ∀ q, q = l.foldl (wssStep f) ([], 0, 0) →
    (∀ o, o ∈ q.1 ↔ o ∈ (l.filter (fun it => decide (f ≤ 1 ∨ it.req.id % f = 0))).map (fun it => it.req.id)) ∧
    q.2.1 = (firsts (l.filter (fun it => decide (f ≤ 1 ∨ it.req.id % f = 0)))).length ∧
    q.2.2 = sizes (firsts (l.filter (fun it => decide (f ≤ 1 ∨ it.req.id % f = 0)))) := by
  induction l using List.reverseRecOn with
  | nil => rintro q rfl; exact ⟨by simp, rfl, rfl⟩
  | append_singleton l x ih =>
    rintro q rfl
    obtain ⟨h1, h2, h3⟩ := ih _ rfl
    rw [List.foldl_append]
    simp only [List.foldl_cons, List.foldl_nil]
    generalize l.foldl (wssStep f) ([], 0, 0) = p at *
    rw [List.filter_append]
    unfold wssStep
    by_cases hf : f > 1 ∧ x.req.id % f ≠ 0
    · have hf' : ¬ (f ≤ 1 ∨ x.req.id % f = 0) := fun h => h.elim (fun h => by omega) hf.2
      rw [if_pos hf, List.filter_cons_of_neg (by simpa using hf'), List.filter_nil, List.append_nil]
      exact ⟨h1, h2, h3⟩
    · have hf' : f ≤ 1 ∨ x.req.id % f = 0 := by
        by_contra hc
        exact hf ⟨by have := fun h => hc (.inl h); omega, fun h => hc (.inr h)⟩
      rw [if_neg hf, List.filter_cons_of_pos (by simpa using hf'), List.filter_nil, firsts_concat]
      by_cases hm : x.req.id ∈ p.1
      · rw [if_pos hm, if_pos ((h1 _).1 hm), List.append_nil]
        refine ⟨?_, h2, h3⟩
        intro o
        rw [h1 o]
        simp only [List.map_append, List.mem_append, List.map_cons, List.map_nil, List.mem_singleton]
        constructor
        · exact .inl
        · rintro (h | rfl)
          · exact h
          · exact (h1 _).1 hm
      · rw [if_neg hm, if_neg (fun h => hm ((h1 _).2 h))]
        refine ⟨?_, ?_, ?_⟩
        · intro o
          simp only [List.mem_cons, h1 o, List.map_append, List.mem_append, List.map_cons, List.map_nil, List.mem_singleton]
          tauto
        · simp [h2]
        · simp only [h3]
          unfold sizes
          simp

theorem testLoop_iff : ∀ (n : Nat) (l : List Item), testLoop n l = true ↔ ∀ it ∈ l.take n, it.req.size ≤ 1 := by
  intro n
  induction n with
  | zero => intro l; simp [testLoop]
  | succ n ih =>
    intro l
    cases l with
    | nil => simp [testLoop]
    | cons it l =>
      unfold testLoop
      by_cases h : it.req.size > 1
      · rw [if_pos h]
        simp only [List.take_succ_cons, List.mem_cons, forall_eq_or_imp, Bool.false_eq_true, false_iff]
        omega
      · rw [if_neg h, ih]
        simp only [List.take_succ_cons, List.mem_cons, forall_eq_or_imp]
        constructor
        · exact fun h' => ⟨by omega, h'⟩
        · exact fun h' => h'.2

/-! ## The trace filter -/

theorem filterLoop_eq (C : Cache σ) (start : Int) : ∀ (l : List Item) (seed : Nat) (s : σ) (out : List TraceConv.Rec),
    filterLoop C start l seed s out = (serve C seed s l >>= fun r => .ok (out ++ (missed l r.1).map (fun it => filterRec (it.time - start) it.req))) := by
  intro l
  induction l with
  | nil => intro seed s out; simp [filterLoop, serve, missed]
  | cons it l ih =>
    intro seed s out
    unfold filterLoop serve
    cases hg : C.get seed s it.req with
    | error e => rfl
    | ok r =>
      simp only [Res.bind_ok]
      rw [ih]
      cases hs : serve C r.2.1 r.2.2 l with
      | error e => rfl
      | ok q =>
        simp only [Res.bind_ok, missed_cons]
        cases r.1 <;> simp

theorem filter_eq (C : Cache σ) (seed : Nat) (s : σ) (tr : List Item) :
    filter C seed s tr = (serve C seed s tr >>= fun r => .ok ((missed tr r.1).flatMap (fun it => (filterRec (it.time - startOf tr) it.req).bytes))) := by
  unfold filter
  rw [filterLoop_eq, firstTime_eq]
  cases serve C seed s tr with
  | error e => rfl
  | ok r => simp only [Res.bind_ok, List.nil_append, List.flatMap_map]

theorem missed_mem {l : List Item} {as : List Bool} {it : Item} (h : it ∈ missed l as) : it ∈ l := by
  unfold missed at h
  obtain ⟨⟨a, b⟩, hm, rfl⟩ := List.mem_map.1 h
  exact (List.of_mem_zip (List.mem_filter.1 hm).1).1

end Verif.Cli
