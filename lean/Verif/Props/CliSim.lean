import Verif.Proof.CliSim
import Verif.Props.Simulator
import Verif.Props.TraceConv
/-!
# C70, C71, C72: the single-cache run of `cachesim`, the working set, the trace filter
-/

set_option maxRecDepth 20000

namespace Verif.Cli
open Verif Verif.Simulator Verif.Spec.Sim Verif.Spec.Cli

variable {σ : Type}

/-! ## C70 -/

/-- the run serves every request of the trace, in order, and reports the number and bytes of the requests that come more than `warm` seconds after
the first, and the number and bytes of those that missed -/
theorem C70_counters (C : Cache σ) (interval warm : Int) {seed seed' : Nat} {s s' : σ} {tr : List Item} {answers : List Bool}
    (h : serve C seed s tr = .ok (answers, seed', s')) :
    ∃ k, simulate C interval warm seed s tr = .ok (seed', s', k) ∧ k.req = (measured warm tr answers).length ∧
      k.reqByte = bytes (measured warm tr answers) ∧ k.miss = (misses (measured warm tr answers)).length ∧
      k.missByte = bytes (misses (measured warm tr answers)) := by
  obtain ⟨h1, h2, h3, h4⟩ := fold_counts interval (startOf tr) { lastTs := warm } (measured warm tr answers)
  refine ⟨_, by rw [simulate_eq, h]; rfl, ?_, ?_, ?_, ?_⟩
  · rw [h1]; simp
  · rw [h3]; simp
  · rw [h2]; simp
  · rw [h4]; simp

/-- if the cache fails on a request, so does the run -/
theorem C70_fault (C : Cache σ) (interval warm : Int) {seed : Nat} {s : σ} {tr : List Item} {e : Fault} (h : serve C seed s tr = .error e) :
    simulate C interval warm seed s tr = .error e := by
  rw [simulate_eq, h]; rfl

theorem measured_sub (warm : Int) (tr : List Item) (answers : List Bool) (hs : tr.Pairwise (fun a b => a.time ≤ b.time)) :
    (measured warm tr answers).Pairwise (fun a b => a.1.time ≤ b.1.time) := by
  have : ∀ (l : List Item) (as : List Bool), l.Pairwise (fun a b => a.time ≤ b.time) → (l.zip as).Pairwise (fun a b => a.1.time ≤ b.1.time) := by
    intro l
    induction l with
    | nil => intro as _; simp
    | cons a l ih =>
      intro as h
      cases as with
      | nil => simp
      | cons b as =>
        rw [List.zip_cons_cons, List.pairwise_cons]
        rw [List.pairwise_cons] at h
        refine ⟨?_, ih as h.2⟩
        rintro ⟨x, y⟩ hm
        exact h.1 x (List.of_mem_zip hm).1
  exact (this tr answers hs).filter _

/-- on a trace ordered by time, the progress reports come at measured requests at least `interval` seconds apart, none is left out, and each has
the number of requests and misses so far and since the report before -/
theorem C70_reports_partial (C : Cache σ) (interval warm : Int) (hi0 : 0 ≤ interval) (hi1 : interval < 2 ^ 31) (hw0 : -1 ≤ warm) (hw1 : warm < 2 ^ 31)
    {seed seed' : Nat} {s s' : σ} {tr : List Item} {answers : List Bool} (hs : tr.Pairwise (fun a b => a.time ≤ b.time))
    (hb : ∀ it ∈ tr, it.time - startOf tr < 2 ^ 63) (h : serve C seed s tr = .ok (answers, seed', s')) :
    ∃ k, simulate C interval warm seed s tr = .ok (seed', s', k) ∧ GoodReports interval warm (startOf tr) (measured warm tr answers) k.reports := by
  refine ⟨_, by rw [simulate_eq, h]; rfl, ?_⟩
  refine (fold_reports hi0 (by omega) (by omega) _ (measured_sub warm tr answers hs) ?_).good
  rintro ⟨it, b⟩ hx
  have h1 := List.mem_filter.1 hx
  have h2 := hb it (List.of_mem_zip h1.1).1
  have h3 : warm < it.time - startOf tr := of_decide_eq_true h1.2
  refine ⟨h3, ?_⟩
  show it.time - startOf tr - warm < _
  omega

/-- so the interval miss ratio is never divided by zero -/
theorem C70_interval_partial {interval warm start : Int} {m : List (Item × Bool)} {rs : List Report} (h : GoodReports interval warm start m rs) (r : Report) (hr : r ∈ rs) :
    0 < r.dReq := by
  obtain ⟨i, hi, he⟩ := List.mem_iff_getElem.1 hr
  obtain ⟨j, x, _, _, e3, _⟩ := h.real r hr
  cases i with
  | zero =>
    have := h.first r (by rw [List.head?_eq_getElem?, List.getElem?_eq_getElem hi, he])
    omega
  | succ i =>
    have h1 : rs[i]? = some rs[i] := List.getElem?_eq_getElem (by omega)
    have h2 : rs[i + 1]? = some r := by rw [List.getElem?_eq_getElem hi, he]
    have h3 := (h.delta i _ r h1 h2).1
    have h4 := (List.pairwise_iff_getElem.1 h.order i (i + 1) (by omega) hi (by omega)).1
    rw [he] at h4
    omega

theorem measured_all {warm : Int} {tr : List Item} {answers : List Bool} (h : ∀ it ∈ tr, warm < it.time - startOf tr) : measured warm tr answers = tr.zip answers := by
  unfold measured
  rw [List.filter_eq_self]
  rintro ⟨it, b⟩ hx
  exact decide_eq_true (h it (List.of_mem_zip hx).1)

theorem bytes_missed : ∀ (l : List Item) (as : List Bool), bytes (misses (l.zip as)) = sizes (missed l as) ∧ (misses (l.zip as)).length = (missed l as).length := by
  intro l
  induction l with
  | nil => intro as; exact ⟨rfl, rfl⟩
  | cons it l ih =>
    intro as
    cases as with
    | nil => exact ⟨rfl, rfl⟩
    | cons b as =>
      obtain ⟨h1, h2⟩ := ih as
      rw [missed_cons]
      unfold misses at *
      cases b
      · simp only [List.zip_cons_cons, List.filter_cons, Bool.not_false, if_true, List.length_cons, h2, and_true]
        rw [sizes_cons, ← h1]
        simp [bytes]
      · simp only [List.zip_cons_cons, List.filter_cons, Bool.not_true, Bool.false_eq_true, if_false, reduceCtorEq]
        exact ⟨h1, h2⟩

/-- without warm-up, the run of one cache and the runs of several caches at once report the same: number and bytes of requests and of misses -/
theorem C70_sameAsMulti (A : Algo σ) (nObj occ : σ → Int) (interval : Int) (seed : Nat) {s s' : σ} {tr : List Item} {answers : List Bool}
    (hst : ∀ it ∈ tr, startOf tr ≤ it.time) (h : A.gets s (tr.map (fun it => it.req)) = .ok (answers, s')) :
    ∃ k st, simulate (Cache.ofAlgo A nObj occ) interval (-1) seed s tr = .ok (seed, s', k) ∧
      Reports (Cache.ofAlgo A nObj occ) ⟨0, -1⟩ (Job.init s [] tr) st s' ∧
      k.req = st.nReq ∧ k.reqByte = st.reqByte ∧ k.miss = st.nMiss ∧ k.missByte = st.missByte := by
  have hsv : serve (Cache.ofAlgo A nObj occ) seed s tr = .ok (answers, seed, s') := serve_ofAlgo _ seed s _ h
  have hlen : answers.length = tr.length := serve_length hsv
  obtain ⟨k, h1, h2, h3, h4, h5⟩ := C70_counters _ interval (-1) hsv
  have hm : measured (-1) tr answers = tr.zip answers := measured_all (fun it hi => by have := hst it hi; omega)
  rw [hm] at h2 h3 h4 h5
  have hr := Props.C34_counters_algo A nObj occ ⟨0, -1⟩ s [] tr [] tr ⟨rfl, by simp, by intro h; simp at h, fun _ => rfl⟩ [] answers s' rfl (by simpa using h)
  refine ⟨k, _, h1, hr, ?_, ?_, ?_, ?_⟩
  · rw [h2]; show _ = tr.length; simp [hlen]
  · rw [h3]
    show _ = sizes tr
    unfold bytes sizes
    rw [show (fun x : Item × Bool => x.1.req.size) = (fun it : Item => it.req.size) ∘ Prod.fst from rfl, ← List.map_map,
      List.map_fst_zip (by omega)]
  · rw [h4]; exact (bytes_missed tr answers).2
  · rw [h5]; exact (bytes_missed tr answers).1

/-- the LRU cache of 10 bytes over the example trace of C34, reports every 2 seconds, no warm-up: the first request is at time 0 and not reported -/
example : ∃ s', serve Props.lruCache 7 (LRU.init 10 0 .none) Props.simTrace = .ok ([false, false, true, false, false, true, false], 7, s') ∧
    simulate Props.lruCache 2 (-1) 7 (LRU.init 10 0 .none) Props.simTrace = .ok (7, s', { req := 7, miss := 5, reqByte := 23, missByte := 15, lastReq := 6, lastMiss := 4, lastTs := 10, reports := [⟨1, 2, 2, 2, 2⟩, ⟨3, 3, 2, 1, 0⟩, ⟨7, 4, 3, 1, 1⟩, ⟨10, 6, 4, 2, 1⟩] }) :=
  ⟨_, rfl, rfl⟩

/-- with a warm-up of some seconds the two disagree: the run of one cache leaves out the request exactly at the end of the warm-up, the other counts it -/
theorem C70_warmup_fails : (∃ k s', simulate Props.lruCache 2 3 7 (LRU.init 10 0 .none) Props.simTrace = .ok (7, s', k) ∧ k.req = 4) ∧
    Split ⟨0, 3⟩ Props.simTrace (Props.simTrace.take 2) (Props.simTrace.drop 2) ∧ (Props.simTrace.drop 2).length = 5 := by
  refine ⟨⟨_, _, rfl, rfl⟩, ⟨rfl, ?_, ?_, by decide⟩, rfl⟩
  · intro i it hi
    have : i < 2 := by
      by_contra hc
      have : (Props.simTrace.take 2)[i]? = none := List.getElem?_eq_none (by simp [Props.simTrace]; omega)
      rw [this] at hi; cases hi
    match i, this with
    | 0, _ => right; simp [Props.simTrace] at hi; subst hi; simp [startOf, Props.simTrace]
    | 1, _ => right; simp [Props.simTrace] at hi; subst hi; simp [startOf, Props.simTrace]
  · intro _ it hi
    simp [Props.simTrace] at hi
    subst hi
    simp [Warms, startOf, Props.simTrace]

/-- a warm-up of 0 seconds leaves out the requests of the first second -/
theorem C70_zeroWarmup_fails (C : Cache σ) (interval : Int) {seed seed' : Nat} {s s' : σ} {tr : List Item} {answers : List Bool}
    (h : serve C seed s tr = .ok (answers, seed', s')) (h0 : ∀ it ∈ tr, it.time = startOf tr) :
    ∃ k, simulate C interval 0 seed s tr = .ok (seed', s', k) ∧ k.req = 0 ∧ k.miss = 0 := by
  obtain ⟨k, h1, h2, _, h4, _⟩ := C70_counters C interval 0 h
  have hm : measured 0 tr answers = [] := by
    unfold measured
    rw [List.filter_eq_nil_iff]
    rintro ⟨it, b⟩ hx
    have := h0 it (List.of_mem_zip hx).1
    simp [this]
  rw [hm] at h2 h4
  exact ⟨k, h1, h2, h4⟩

/-- when time goes back, the difference to the last report is taken modulo 2^64, so a report is made although the interval has not passed -/
theorem C70_unsorted_fails : ∃ s' k, simulate Props.lruCache 100 (-1) 7 (LRU.init 10 0 .none) [⟨0, ⟨1, 4, -2⟩⟩, ⟨100, ⟨1, 4, -2⟩⟩, ⟨99, ⟨1, 4, -2⟩⟩] = .ok (7, s', k) ∧
    k.reports = [⟨100, 2, 1, 2, 1⟩, ⟨99, 3, 1, 1, 0⟩] :=
  ⟨_, _, rfl, rfl⟩

/-! ## C71 -/

/-- for a trace file of up to 1 GiB, the working set is the number of different objects and the sum of their sizes, each as first requested -/
theorem C71_workingSet {fileSize : Nat} (h : fileSize ≤ GiB) (l : List Item) : workingSet fileSize l = ((firsts l).length, sizes (firsts l)) := by
  have hs : scaling fileSize = 1 := by
    unfold scaling
    rw [if_neg (by unfold GiB at *; omega), if_neg (by omega)]
  have hf : l.filter (fun it => decide (scaling fileSize ≤ 1 ∨ it.req.id % scaling fileSize = 0)) = l := by
    rw [List.filter_eq_self]
    intro it _
    rw [hs]
    simp
  obtain ⟨_, h2, h3⟩ := wss_fold (scaling fileSize) l _ rfl
  rw [hf] at h2 h3
  unfold workingSet
  rw [wssLoop_eq]
  simp only
  rw [h2, h3, hs, Nat.mul_one, Nat.mul_one]

/-- every object of the trace is among the first requests, once -/
theorem C71_firsts (l : List Item) : ((firsts l).map (fun it => it.req.id)).Nodup ∧ ∀ o, o ∈ (firsts l).map (fun it => it.req.id) ↔ o ∈ l.map (fun it => it.req.id) := by
  induction l using List.reverseRecOn with
  | nil => exact ⟨by simp [firsts], by simp [firsts]⟩
  | append_singleton l x ih =>
    obtain ⟨h1, h2⟩ := ih
    rw [firsts_concat]
    by_cases hm : x.req.id ∈ l.map (fun it => it.req.id)
    · rw [if_pos hm, List.append_nil]
      refine ⟨h1, ?_⟩
      intro o
      rw [h2 o, List.map_append, List.mem_append]
      constructor
      · exact .inl
      · rintro (h | h)
        · exact h
        · simp at h; subst h; exact hm
    · rw [if_neg hm, List.map_append]
      refine ⟨?_, ?_⟩
      · rw [List.nodup_append]
        refine ⟨h1, by simp, ?_⟩
        intro a ha b hb
        simp at hb
        subst hb
        rintro rfl
        exact hm ((h2 _).1 ha)
      · intro o
        rw [List.mem_append, h2 o, List.map_append, List.mem_append]

/-- for a larger file only the objects whose number is divisible by 11 (over 5 GiB: by 101) are looked at, and the result is multiplied by that -/
theorem C71_sampled {fileSize : Nat} (h : GiB < fileSize) (l : List Item) :
    let f := if fileSize > 5 * GiB then 101 else 11
    workingSet fileSize l = ((firsts (l.filter (fun it => decide (f ∣ it.req.id)))).length * f, sizes (firsts (l.filter (fun it => decide (f ∣ it.req.id)))) * f) := by
  intro f
  have hs : scaling fileSize = f := by
    unfold scaling
    show _ = if fileSize > 5 * GiB then 101 else 11
    by_cases h5 : fileSize > 5 * GiB
    · rw [if_pos h5, if_pos h5]
    · rw [if_neg h5, if_neg h5, if_pos (by omega)]
  have hf1 : ¬ f ≤ 1 := by
    have : f = 101 ∨ f = 11 := by
      show (if fileSize > 5 * GiB then 101 else 11) = 101 ∨ (if fileSize > 5 * GiB then 101 else 11) = 11
      split
      · exact .inl rfl
      · exact .inr rfl
    rcases this with e | e <;> rw [e] <;> decide
  obtain ⟨_, h2, h3⟩ := wss_fold f l _ rfl
  have hp : (fun it : Item => decide (f ≤ 1 ∨ it.req.id % f = 0)) = (fun it : Item => decide (f ∣ it.req.id)) := by
    funext it
    rw [decide_eq_decide, Nat.dvd_iff_mod_eq_zero]
    constructor
    · rintro (h | h)
      · exact absurd h hf1
      · exact h
    · exact .inr
  rw [hp] at h2 h3
  unfold workingSet
  rw [wssLoop_eq, hs]
  simp only [h2, h3]

/-- so the working set of a large trace without such objects is 0 -/
theorem C71_sampled_fails : workingSet (2 * GiB) [⟨0, ⟨1, 4, -2⟩⟩, ⟨1, ⟨2, 3, -2⟩⟩, ⟨2, ⟨1, 4, -2⟩⟩] = (0, 0) ∧
    workingSet GiB [⟨0, ⟨1, 4, -2⟩⟩, ⟨1, ⟨2, 3, -2⟩⟩, ⟨2, ⟨1, 4, -2⟩⟩] = (2, 7) := by
  refine ⟨?_, ?_⟩ <;> decide +kernel

/-- the metadata of objects is left out of account exactly if none of the first 1024 requests has a size over 1 -/
theorem C71_metadata (l : List Item) : shouldDisable l = true ↔ ∀ it ∈ l.take 1024, it.req.size ≤ 1 := testLoop_iff 1024 l

/-! ## C72 -/

/-- the trace filter writes the requests that miss, in order, in the oracleGeneral format: reading the file delivers their objects and sizes, at
times counted from the first request.  `_partial`: times, ids and sizes representable in the format, no size 0, and at least one miss. -/
theorem C72_filter_partial (C : Cache σ) {seed seed' : Nat} {s s' : σ} {tr : List Item} {answers : List Bool} (h : serve C seed s tr = .ok (answers, seed', s'))
    (ht : ∀ it ∈ tr, startOf tr ≤ it.time ∧ it.time - startOf tr < 2 ^ 32) (hid : ∀ it ∈ tr, it.req.id < 2 ^ 64) (hsz : ∀ it ∈ tr, 0 < it.req.size ∧ it.req.size < 2 ^ 32)
    (hm : missed tr answers ≠ []) (hash : Nat → Nat) :
    ∃ out rd qs rd', filter C seed s tr = .ok out ∧ Reader.setup Reader.oracleGeneral out Reader.defaultParams = .ok rd ∧
      Reader.readAll hash (rd.bytes.length + 1) rd Reader.newRequest = .ok (qs, rd') ∧
      qs.map Spec.Conv.asReq = (missed tr answers).map (fun it => { it.req with next := -2 }) ∧
      qs.map (fun q => q.vals .time) = (missed tr answers).map (fun it => it.time - startOf tr) := by
  have hrec : ∀ it ∈ missed tr answers, filterRec (it.time - startOf tr) it.req = ⟨(it.time - startOf tr).toNat, it.req.id, it.req.size, -2⟩ ∧
      0 ≤ it.time - startOf tr ∧ it.time - startOf tr < 2 ^ 32 ∧ it.req.id < 2 ^ 64 ∧ 0 < it.req.size ∧ it.req.size < 2 ^ 32 := by
    intro it hi
    have hmem := missed_mem hi
    have h1 := ht it hmem
    have h2 := hid it hmem
    have h3 := hsz it hmem
    refine ⟨?_, by omega, h1.2, h2, h3.1, h3.2⟩
    unfold filterRec
    rw [Int.emod_eq_of_lt (by omega) (by omega), Nat.mod_eq_of_lt (by omega), Nat.mod_eq_of_lt (by omega)]
  set recs : List (Reader.Fld → Int) := (missed tr answers).map (fun it => (filterRec (it.time - startOf tr) it.req).vals) with hrecs
  have hout : filter C seed s tr = .ok (Spec.Reader.encodeAll Spec.Reader.lOracleGeneral recs) := by
    rw [filter_eq, h]
    simp only [Res.bind_ok]
    congr 1
    unfold Spec.Reader.encodeAll
    rw [hrecs, List.flatMap_map, List.flatMap_def, List.flatMap_def]
    congr 1
    apply List.map_congr_left
    intro it hi
    obtain ⟨e, h1, h2, h3, h4, h5⟩ := hrec it hi
    rw [e]
    exact TraceConv.bytes_eq _ (by simp only; omega) (by simp only; omega) (by simp only; omega)
  have hvals : ∀ it ∈ missed tr answers, (filterRec (it.time - startOf tr) it.req).vals .time = it.time - startOf tr ∧ (filterRec (it.time - startOf tr) it.req).vals .id = it.req.id ∧
      (filterRec (it.time - startOf tr) it.req).vals .size = it.req.size ∧ (filterRec (it.time - startOf tr) it.req).vals .next = -2 := by
    intro it hi
    obtain ⟨e, h1, h2, _⟩ := hrec it hi
    rw [e]
    refine ⟨?_, rfl, rfl, rfl⟩
    show (((it.time - startOf tr).toNat : Nat) : Int) = _
    omega
  have hfit : ∀ r ∈ recs, Spec.Reader.Fits Spec.Reader.lOracleGeneral r := by
    intro r hr
    obtain ⟨it, hi, rfl⟩ := List.mem_map.1 hr
    obtain ⟨v1, v2, v3, v4⟩ := hvals it hi
    obtain ⟨_, h1, h2, h3, h4, h5⟩ := hrec it hi
    intro f hf
    simp only [Spec.Reader.lOracleGeneral, List.mem_cons, List.not_mem_nil, or_false] at hf
    rcases hf with rfl | rfl | rfl | rfl
    · simp only [Spec.Reader.fits, v1, Bool.false_eq_true, if_false]; norm_num; omega
    · simp only [Spec.Reader.fits, v2, Bool.false_eq_true, if_false]; norm_num; omega
    · simp only [Spec.Reader.fits, v3, Bool.false_eq_true, if_false]; norm_num; omega
    · simp only [Spec.Reader.fits, v4, if_true]; norm_num
  obtain ⟨rd, qs, rd', k1, k2, k3, k4⟩ := Props.TraceConv.read_back recs hfit (by rw [hrecs]; simpa using hm) (by
    intro r hr
    obtain ⟨it, hi, rfl⟩ := List.mem_map.1 hr
    rw [(hvals it hi).2.2.1]
    have := (hrec it hi).2.2.2.2.1
    omega) hash
  refine ⟨_, rd, qs, rd', hout, k1, k2, ?_, ?_⟩
  · apply List.ext_getElem?
    intro i
    rw [List.getElem?_map, List.getElem?_map]
    have hl : qs.length = (missed tr answers).length := by rw [k3, hrecs, List.length_map]
    by_cases hi : i < qs.length
    · have hi' : i < (missed tr answers).length := by omega
      have hr : recs[i]? = some (filterRec ((missed tr answers)[i].time - startOf tr) (missed tr answers)[i].req).vals := by
        rw [hrecs, List.getElem?_map, List.getElem?_eq_getElem hi']; rfl
      obtain ⟨a1, a2, a3, a4⟩ := k4 i _ _ hr (List.getElem?_eq_getElem hi)
      obtain ⟨v1, v2, v3, v4⟩ := hvals _ (List.getElem_mem hi')
      rw [List.getElem?_eq_getElem hi, List.getElem?_eq_getElem hi']
      simp only [Option.map_some, Option.some.injEq, Spec.Conv.asReq, a2, a3, a4, v2, v3, v4]
      rfl
    · rw [List.getElem?_eq_none (by omega), List.getElem?_eq_none (by omega)]
      rfl
  · apply List.ext_getElem?
    intro i
    rw [List.getElem?_map, List.getElem?_map]
    have hl : qs.length = (missed tr answers).length := by rw [k3, hrecs, List.length_map]
    by_cases hi : i < qs.length
    · have hi' : i < (missed tr answers).length := by omega
      have hr : recs[i]? = some (filterRec ((missed tr answers)[i].time - startOf tr) (missed tr answers)[i].req).vals := by
        rw [hrecs, List.getElem?_map, List.getElem?_eq_getElem hi']; rfl
      obtain ⟨a1, _⟩ := k4 i _ _ hr (List.getElem?_eq_getElem hi)
      obtain ⟨v1, _⟩ := hvals _ (List.getElem_mem hi')
      rw [List.getElem?_eq_getElem hi, List.getElem?_eq_getElem hi']
      simp only [Option.map_some, Option.some.injEq, a1, v1]
    · rw [List.getElem?_eq_none (by omega), List.getElem?_eq_none (by omega)]
      rfl

/-- the hypotheses hold for the example trace, of which five requests are written -/
example : (∃ s', serve Props.lruCache 7 (LRU.init 10 0 .none) Props.simTrace = .ok ([false, false, true, false, false, true, false], 7, s')) ∧
    (∀ it ∈ Props.simTrace, startOf Props.simTrace ≤ it.time ∧ it.time - startOf Props.simTrace < 2 ^ 32) ∧ (∀ it ∈ Props.simTrace, it.req.id < 2 ^ 64) ∧
    (∀ it ∈ Props.simTrace, 0 < it.req.size ∧ it.req.size < 2 ^ 32) ∧
    (missed Props.simTrace [false, false, true, false, false, true, false]).map (fun it => it.req.id) = [1, 2, 3, 4, 2] := by
  refine ⟨⟨_, rfl⟩, ?_, ?_, ?_, rfl⟩ <;> decide

/-- a request more than 2^32 seconds after the first is written with a wrong time, one of 4 GiB with size 0 -/
theorem C72_range_fails : (filterRec 4294967296 ⟨1, 4, -2⟩).time = 0 ∧ (filterRec 0 ⟨1, 4294967296, -2⟩).size = 0 := by
  refine ⟨?_, ?_⟩ <;> decide

end Verif.Cli
