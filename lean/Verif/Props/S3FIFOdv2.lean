import Verif.Proof.S3FIFOdv2
import Verif.Props.Demo
/-!
# Properties of S3FIFOdv2 (libCacheSim/cache/eviction/priv/S3FIFOdv2.c)

The specification is `Verif/Spec/AdaptiveS3.lean`.  The theorems hold for all sizes with the small queue no larger than the cache, every initial threshold and every sequence
of fewer than `2 ^ 31` `get` requests for objects smaller than 4 GiB (`S3v2_Ok`).  The theorems named `_fails` show what goes wrong with `remove` calls.
-/

namespace Verif.Props
open Verif Verif.Spec Verif.Spec.AdaptiveS3
open Verif.Spec.LazyARC (ent size)
set_option linter.unusedVariables false
set_option maxRecDepth 100000

/-- what S3FIFOdv2 has cached: the objects of the small and the main queue -/
abbrev S3v2_cached (s : S3FIFOdv2.State) : Contents := s.fifo.base.cached ++ s.main.base.cached

/-- the two queues, oldest object first, with the hits of the objects; the ghost queue, newest first; the two thresholds; the number of requests -/
abbrev S3v2_view (s : S3FIFOdv2.State) : St := S3FIFOdv2.view s

/-- the traces considered -/
def S3v2_Ok (rs : List Req) : Prop := rs.length < 2 ^ 31 ∧ ∀ r ∈ rs, r.size < u32

abbrev S3v2_init (K : Conf) (mv : Nat) : S3FIFOdv2.State := S3FIFOdv2.init K.cs K.fs K.gs mv

/-! ### a demo: a cache of 20 bytes, 4 of them for the small queue -/

def S3v2_K : Conf := ⟨20, 4, 18⟩

def S3v2_req (id size : Nat) : Req := ⟨id, size, -2⟩

/-- Ten objects of two bytes, each requested twice, and one that pushes all of them to the main queue; nine hits for each that is left, and many for the new one up to the
1000th request. -/
def S3v2_trace1 : List Req :=
  (List.range 10).flatMap (fun i => List.replicate 2 (S3v2_req i 2)) ++ [S3v2_req 10 2] ++
  (List.range 9).flatMap (fun i => List.replicate 9 (S3v2_req (i + 1) 2)) ++ List.replicate 898 (S3v2_req 10 2)

/-- Objects that are demoted to the ghost queue, one that is as large as the small queue, one that is larger, a ghost hit. -/
def S3v2_trace2 : List Req := [S3v2_req 11 3, S3v2_req 12 2, S3v2_req 13 4, S3v2_req 14 5, S3v2_req 15 3, S3v2_req 16 3, S3v2_req 12 2, S3v2_req 3 2, S3v2_req 17 1, S3v2_req 18 1]

def S3v2_trace : List Req := S3v2_trace1 ++ S3v2_trace2

def S3v2_demo : S3FIFOdv2.State := match S3FIFOdv2.gets (S3v2_init S3v2_K 1) S3v2_trace with | .ok p => p.2 | .error _ => S3v2_init S3v2_K 1

theorem S3v2_demo_reached : (S3FIFOdv2.gets (S3v2_init S3v2_K 1) S3v2_trace).isOk = true ∧
    (S3v2_view S3v2_demo).small.map (fun x => (x.id, x.size, x.cnt)) = [(17, 1, 0), (18, 1, 0)] ∧
    (S3v2_view S3v2_demo).main.map (fun x => (x.id, x.size, x.cnt)) =
      [(3, 2, 3), (4, 2, 2), (5, 2, 2), (6, 2, 2), (7, 2, 2), (8, 2, 2), (9, 2, 2), (10, 2, 0), (12, 2, 0)] ∧
    (S3v2_view S3v2_demo).ghost = [(16, 3), (15, 3), (11, 3)] ∧ (S3v2_view S3v2_demo).keep = 8 ∧ (S3v2_view S3v2_demo).move = 8 := by
  decide +kernel

theorem S3v2_demo_ok : S3v2_Ok S3v2_trace := ⟨by decide +kernel, by decide +kernel⟩

section
variable (K : Conf) (hK : K.fs ≤ K.cs) (mv : Nat)
include hK

/-- C94: S3FIFOdv2 answers every trace as S3-FIFO with thresholds that follow the frequencies in the main queue does, and its queues and thresholds are those of that cache. -/
theorem C94_follows_S3FIFOdv2 (rs : List Req) (hrs : S3v2_Ok rs) :
    ∃ s, S3FIFOdv2.gets (S3v2_init K mv) rs = .ok ((AdaptiveS3.gets K { move := mv } rs).1, s) ∧ S3v2_view s = (AdaptiveS3.gets K { move := mv } rs).2 := by
  obtain ⟨s, h1, h2⟩ := S3FIFOdv2.reach hK mv hrs.1 hrs.2
  exact ⟨s, h1, h2.view⟩

/-- C94: what the 1000th request (the 2000th, ...) does when it leaves the main queue more than 90% full: both thresholds become `2 ^ i` for the least `i` such that more than nine
tenths of the objects of the main queue have fewer than `2 ^ (i + 1)` hits.  Every other request leaves the thresholds alone. -/
theorem C94_thresholds_S3FIFOdv2 (rs : List Req) (r : Req) (hrs : S3v2_Ok (rs ++ [r])) (out : List Bool) (s : S3FIFOdv2.State)
    (hg : S3FIFOdv2.gets (S3v2_init K mv) rs = .ok (out, s)) :
    ∃ b s', S3FIFOdv2.get s r = .ok (b, s') ∧
      if 10 * size (S3v2_view s').main > 9 * (K.cs - K.fs) ∧ (rs.length + 1) % 1000 = 0 then
        ∃ i, s'.keep = 2 ^ i ∧ s'.move = 2 ^ i ∧ Enough (S3v2_view s').main i ∧ ∀ j < i, ¬ Enough (S3v2_view s').main j
      else s'.keep = s.keep ∧ s'.move = s.move := by
  obtain ⟨hl, hsz⟩ := hrs
  simp only [List.length_append, List.length_cons, List.length_nil] at hl
  have hsz1 : ∀ q ∈ rs, q.size < u32 := fun q hq => hsz q (by simp [hq])
  have hrsz : r.size < u32 := hsz r (by simp)
  obtain ⟨h, hn⟩ := S3FIFOdv2.reach_cont hK mv (r := r) (by omega) hsz1 hg hrsz
  obtain ⟨s1, h1, h2, h3⟩ := h.get_spec hK hn r hrsz
  refine ⟨_, s1, h1, ?_⟩
  have hnn : (S3FIFOdv2.view s).n = rs.length := by
    obtain ⟨s'', k1, k2⟩ := S3FIFOdv2.reach hK mv (rs := rs) (by omega) hsz1
    rw [hg] at k1
    injection k1 with k1
    injection k1 with _ k1
    subst k1
    rw [k2.view, S3FIFOdv2.gets_n]
    exact Nat.zero_add _
  have hv : S3v2_view s1 = _ := h2.view
  have hkeep := h2.keep
  have hmove := h2.move
  obtain ⟨_, _, s2, _⟩ := h.serve_spec hK hn r hrsz
  rw [hv]
  have hfr := S3FIFOdv2.serve_frame (K := K) (S3FIFOdv2.view s) r
  unfold AdaptiveS3.get at h3 hkeep hmove ⊢
  simp only at h3 hkeep hmove ⊢
  rw [← hnn]
  by_cases hc : 10 * size (serve K (S3FIFOdv2.view s) r).2.main > 9 * (K.cs - K.fs) ∧ (serve K (S3FIFOdv2.view s) r).2.n % 1000 = 0
  · simp only [if_pos hc] at hkeep hmove h3 ⊢
    have hcn : (serve K (S3FIFOdv2.view s) r).2.n = (S3FIFOdv2.view s).n + 1 := hfr.1
    rw [if_pos ⟨hc.1, by rw [← hcn]; exact hc.2⟩]
    have hne : (serve K (S3FIFOdv2.view s) r).2.main ≠ [] := by
      intro e
      have := hc.1
      rw [e, S3FIFOdv2.size_nil] at this
      omega
    obtain ⟨sx, _, hx, hxn⟩ := h.serve_spec hK hn r hrsz
    have hen := S3FIFOdv2.enough_30 hne (fun x hx' => Nat.lt_of_le_of_lt (hx.cnt x (List.mem_append_right _ hx')) (by rw [hxn]; exact hn))
    obtain ⟨k, a1, _, a3, a4⟩ := S3FIFOdv2.threshold_least (serve K (S3FIFOdv2.view s) r).2.keep 32 0 ⟨30, by omega, by omega, hen⟩
    obtain ⟨k', b1, _, b3, b4⟩ := S3FIFOdv2.threshold_least (serve K (S3FIFOdv2.view s) r).2.move 32 0 ⟨30, by omega, by omega, hen⟩
    have hkk : k = k' := by
      rcases Nat.lt_trichotomy k k' with hlt | e | hlt
      · exact absurd a3 (b4 k (Nat.zero_le _) hlt)
      · exact e
      · exact absurd b3 (a4 k' (Nat.zero_le _) hlt)
    exact ⟨k, by rw [hkeep]; exact a1, by rw [hmove, hkk]; exact b1, a3, fun j hj => a4 j (Nat.zero_le _) hj⟩
  · simp only [if_neg hc] at hkeep hmove h3 ⊢
    have hcn : (serve K (S3FIFOdv2.view s) r).2.n = (S3FIFOdv2.view s).n + 1 := hfr.1
    rw [if_neg (by rw [← hcn]; exact hc), hkeep, hmove, hfr.2.1, hfr.2.2]
    exact ⟨rfl, rfl⟩

/-! ### C01 - C09: traces of `get` requests -/

/-- What is proved of C01, C02, C04: after every trace the cached bytes and objects are what the cache reports, within the capacity, and no object is cached twice. -/
theorem C01_capacity_S3FIFOdv2_partial (rs : List Req) (hrs : S3v2_Ok rs) (out : List Bool) (s : S3FIFOdv2.State)
    (hg : S3FIFOdv2.gets (S3v2_init K mv) rs = .ok (out, s)) : 0 ≤ S3FIFOdv2.algo.occ s ∧ S3FIFOdv2.algo.occ s ≤ K.cs := by
  obtain ⟨s', h1, h2⟩ := S3FIFOdv2.reach hK mv hrs.1 hrs.2
  rw [hg] at h1
  injection h1 with h1
  injection h1 with _ h1
  subst h1
  show 0 ≤ s.fifo.base.occ + s.main.base.occ ∧ s.fifo.base.occ + s.main.base.occ ≤ K.cs
  have := h2.small.occ; have := h2.main.occ; have := h2.cap
  omega

theorem C02_accounting_S3FIFOdv2_partial (rs : List Req) (hrs : S3v2_Ok rs) (out : List Bool) (s : S3FIFOdv2.State)
    (hg : S3FIFOdv2.gets (S3v2_init K mv) rs = .ok (out, s)) :
    S3FIFOdv2.algo.occ s = (bytes 0 (S3v2_cached s) : Nat) ∧ S3FIFOdv2.algo.nObj s = ((S3v2_cached s).length : Nat) ∧ (S3v2_cached s).ids.Nodup := by
  obtain ⟨s', h1, h2⟩ := S3FIFOdv2.reach hK mv hrs.1 hrs.2
  rw [hg] at h1
  injection h1 with h1
  injection h1 with _ h1
  subst h1
  have hp := h2.cached
  refine ⟨?_, ?_, ?_⟩
  · show s.fifo.base.occ + s.main.base.occ = _
    have e : bytes 0 (S3v2_cached s) = charge 0 (contents (AdaptiveS3.gets K { move := mv } rs).2) := by
      rw [bytes_eq_charge]; exact charge_perm hp.symm
    rw [e, h2.small.occ, h2.main.occ, S3FIFOdv2.size_eq, S3FIFOdv2.size_eq, contents, charge_app]
    push_cast; rfl
  · show s.fifo.base.nObj + s.main.base.nObj = _
    have e : (S3v2_cached s).length = (contents (AdaptiveS3.gets K { move := mv } rs).2).length := hp.symm.length_eq
    rw [e, h2.small.nObj, h2.main.nObj, contents, List.length_append]
    simp [ent]
  · refine (hp.map Prod.fst).nodup_iff.1 ?_
    have := h2.nodup
    rw [List.map_append, ← S3FIFOdv2.ent_ids, ← S3FIFOdv2.ent_ids] at this
    rw [contents, List.map_append]
    exact this

/-- What is proved of C03: `get` reports a hit exactly for cached objects, and so does `find`, which without update changes nothing. -/
theorem C03_hitIffCached_S3FIFOdv2_partial (rs : List Req) (r : Req) (hrs : S3v2_Ok (rs ++ [r])) (out : List Bool) (s : S3FIFOdv2.State)
    (hg : S3FIFOdv2.gets (S3v2_init K mv) rs = .ok (out, s)) :
    (∃ s', S3FIFOdv2.get s r = .ok (decide (r.id ∈ (S3v2_cached s).ids), s')) ∧ S3FIFOdv2.algo.find s r false = .ok (decide (r.id ∈ (S3v2_cached s).ids), s) := by
  obtain ⟨hl, hsz⟩ := hrs
  simp only [List.length_append, List.length_cons, List.length_nil] at hl
  have hsz1 : ∀ q ∈ rs, q.size < u32 := fun q hq => hsz q (by simp [hq])
  have hrsz : r.size < u32 := hsz r (by simp)
  obtain ⟨h, hn⟩ := S3FIFOdv2.reach_cont hK mv (r := r) (by omega) hsz1 hg hrsz
  have hmem : r.id ∈ (S3v2_cached s).ids ↔ r.id ∈ (ent (S3FIFOdv2.view s).small).ids ∨ r.id ∈ (ent (S3FIFOdv2.view s).main).ids := by
    rw [← List.mem_append, ← ids_append]
    exact (h.cached.map Prod.fst).mem_iff.symm
  obtain ⟨s1, h1, _⟩ := h.get_spec hK hn r hrsz
  refine ⟨⟨s1, ?_⟩, ?_⟩
  · rw [h1]
    congr 2
    show (serve K (S3FIFOdv2.view s) r).1 = _
    unfold serve
    dsimp only
    by_cases hs : r.id ∈ (ent (S3FIFOdv2.view s).small).ids
    · rw [if_pos hs]; exact (decide_eq_true (hmem.2 (Or.inl hs))).symm
    · rw [if_neg hs]
      by_cases hm : r.id ∈ (ent (S3FIFOdv2.view s).main).ids
      · rw [if_pos hm]; exact (decide_eq_true (hmem.2 (Or.inr hm))).symm
      · have hnot : ¬ r.id ∈ (S3v2_cached s).ids := fun hh => (hmem.1 hh).elim hs hm
        rw [if_neg hm, decide_eq_false hnot]
        split
        · rfl
        · split
          · rfl
          · split <;> rfl
  · show S3FIFOdv2.find s r false = _
    simp only [S3FIFOdv2.find, Bool.false_eq_true, if_false, h.small.peek r, h.main.peek r]
    congr 2
    rw [← Bool.decide_or, decide_eq_decide, hmem]

/-- What is proved of C05: a missed object smaller than the small queue is cached after `get`; if it was on the ghost queue, equality is enough.  What is missing: an object as large as
the small queue passes `can_insert` but is cached only if it was on the ghost queue (see `C05_equalSize_fails_S3FIFOdv2`). -/
theorem C05_admittedMissCached_S3FIFOdv2_partial (rs : List Req) (r : Req) (hrs : S3v2_Ok (rs ++ [r])) (out : List Bool) (s : S3FIFOdv2.State)
    (hg : S3FIFOdv2.gets (S3v2_init K mv) rs = .ok (out, s)) (hnc : r.id ∉ (S3v2_cached s).ids)
    (hfit : r.size < K.fs ∨ (r.size ≤ K.fs ∧ r.id ∈ (S3v2_view s).ghost.ids)) :
    ∃ s', S3FIFOdv2.get s r = .ok (false, s') ∧ (r.id, r.size) ∈ S3v2_cached s' := by
  have hget := (C03_hitIffCached_S3FIFOdv2_partial K hK mv rs r hrs out s hg).1
  rw [decide_eq_false hnc] at hget
  obtain ⟨hl, hsz⟩ := hrs
  simp only [List.length_append, List.length_cons, List.length_nil] at hl
  have hsz1 : ∀ q ∈ rs, q.size < u32 := fun q hq => hsz q (by simp [hq])
  have hrsz : r.size < u32 := hsz r (by simp)
  obtain ⟨h, hn⟩ := S3FIFOdv2.reach_cont hK mv (r := r) (by omega) hsz1 hg hrsz
  have hmem : r.id ∈ (S3v2_cached s).ids ↔ r.id ∈ (ent (S3FIFOdv2.view s).small).ids ∨ r.id ∈ (ent (S3FIFOdv2.view s).main).ids := by
    rw [← List.mem_append, ← ids_append]
    exact (h.cached.map Prod.fst).mem_iff.symm
  have hns : ¬ r.id ∈ (ent (S3FIFOdv2.view s).small).ids := fun hh => hnc (hmem.2 (Or.inl hh))
  have hnm : ¬ r.id ∈ (ent (S3FIFOdv2.view s).main).ids := fun hh => hnc (hmem.2 (Or.inr hh))
  obtain ⟨s0, h0⟩ := hget
  obtain ⟨s1, h1, h2, _⟩ := h.get_spec hK hn r hrsz
  have hse : s1 = s0 := by
    rw [h0] at h1; injection h1 with h1; injection h1 with _ h1; exact h1.symm
  subst hse
  refine ⟨s1, h0, h2.cached.subset ?_⟩
  have hcont : (r.id, r.size) ∈ contents (serve K (S3FIFOdv2.view s) r).2 := by
    unfold serve
    dsimp only
    rw [if_neg hns, if_neg hnm, if_neg (by omega)]
    by_cases hgh : r.id ∈ (S3FIFOdv2.view s).ghost.ids
    · rw [if_pos hgh]; simp [contents, ent, Item.entry]
    · have hlt : r.size < K.fs := hfit.resolve_right (fun hh => hgh hh.2)
      rw [if_neg hgh, if_pos hlt]; simp [contents, ent, Item.entry]
  unfold AdaptiveS3.get
  dsimp only
  split <;> exact hcont

/-- C08: a request for an object larger than the small queue that is not cached leaves the cached objects alone. -/
theorem C08_rejectQuiet_S3FIFOdv2_partial (rs : List Req) (r : Req) (hrs : S3v2_Ok (rs ++ [r])) (out : List Bool) (s : S3FIFOdv2.State)
    (hg : S3FIFOdv2.gets (S3v2_init K mv) rs = .ok (out, s)) (hnc : r.id ∉ (S3v2_cached s).ids) (hbig : K.fs < r.size) :
    ∃ s', S3FIFOdv2.get s r = .ok (false, s') ∧ (S3v2_cached s').Perm (S3v2_cached s) ∧
      (S3v2_view s').small = (S3v2_view s).small ∧ (S3v2_view s').main = (S3v2_view s).main := by
  have hget := (C03_hitIffCached_S3FIFOdv2_partial K hK mv rs r hrs out s hg).1
  rw [decide_eq_false hnc] at hget
  obtain ⟨hl, hsz⟩ := hrs
  simp only [List.length_append, List.length_cons, List.length_nil] at hl
  have hsz1 : ∀ q ∈ rs, q.size < u32 := fun q hq => hsz q (by simp [hq])
  have hrsz : r.size < u32 := hsz r (by simp)
  obtain ⟨h, hn⟩ := S3FIFOdv2.reach_cont hK mv (r := r) (by omega) hsz1 hg hrsz
  have hmem : r.id ∈ (S3v2_cached s).ids ↔ r.id ∈ (ent (S3FIFOdv2.view s).small).ids ∨ r.id ∈ (ent (S3FIFOdv2.view s).main).ids := by
    rw [← List.mem_append, ← ids_append]
    exact (h.cached.map Prod.fst).mem_iff.symm
  have hns : ¬ r.id ∈ (ent (S3FIFOdv2.view s).small).ids := fun hh => hnc (hmem.2 (Or.inl hh))
  have hnm : ¬ r.id ∈ (ent (S3FIFOdv2.view s).main).ids := fun hh => hnc (hmem.2 (Or.inr hh))
  obtain ⟨s0, h0⟩ := hget
  obtain ⟨s1, h1, h2, _⟩ := h.get_spec hK hn r hrsz
  have hse : s1 = s0 := by
    rw [h0] at h1; injection h1 with h1; injection h1 with _ h1; exact h1.symm
  subst hse
  have hq : (AdaptiveS3.get K (S3FIFOdv2.view s) r).2.small = (S3FIFOdv2.view s).small ∧ (AdaptiveS3.get K (S3FIFOdv2.view s) r).2.main = (S3FIFOdv2.view s).main := by
    have hsv : (serve K (S3FIFOdv2.view s) r).2.small = (S3FIFOdv2.view s).small ∧ (serve K (S3FIFOdv2.view s) r).2.main = (S3FIFOdv2.view s).main := by
      unfold serve
      dsimp only
      rw [if_neg hns, if_neg hnm, if_pos hbig]
      exact ⟨rfl, rfl⟩
    unfold AdaptiveS3.get
    dsimp only
    split <;> exact hsv
  have hv := h2.view
  refine ⟨s1, h0, ?_, by rw [show S3v2_view s1 = _ from hv]; exact hq.1, by rw [show S3v2_view s1 = _ from hv]; exact hq.2⟩
  refine h2.cached.symm.trans (List.Perm.trans ?_ h.cached)
  rw [contents, contents, hq.1, hq.2]

/-- What is proved of C09: no trace makes S3FIFOdv2 fail. -/
theorem C09_safe_S3FIFOdv2_partial (rs : List Req) (hrs : S3v2_Ok rs) : ∃ out s, S3FIFOdv2.gets (S3v2_init K mv) rs = .ok (out, s) := by
  obtain ⟨s, h1, _⟩ := S3FIFOdv2.reach hK mv hrs.1 hrs.2
  exact ⟨_, s, h1⟩

end

/-! ### cases that meet the hypotheses -/

theorem S3v2_gets : S3FIFOdv2.gets (S3v2_init S3v2_K 1) S3v2_trace = .ok ((AdaptiveS3.gets S3v2_K { move := 1 } S3v2_trace).1, S3v2_demo) := by
  obtain ⟨s, h1, _⟩ := C94_follows_S3FIFOdv2 S3v2_K (by decide) 1 S3v2_trace S3v2_demo_ok
  rw [S3v2_demo, h1]

theorem S3v2_ok_snoc (r : Req) (h : r.size < u32) : S3v2_Ok (S3v2_trace ++ [r]) := by
  refine ⟨by rw [List.length_append]; exact Nat.lt_of_lt_of_eq (show S3v2_trace.length + [r].length < 2 ^ 31 by rw [show S3v2_trace.length = 1010 by decide +kernel]; simp) rfl, ?_⟩
  intro q hq
  rcases List.mem_append.1 hq with hq | hq
  · exact S3v2_demo_ok.2 q hq
  · rw [List.mem_singleton.1 hq]; exact h

/-- the demo run meets the hypotheses -/
example : 0 ≤ S3FIFOdv2.algo.occ S3v2_demo ∧ S3FIFOdv2.algo.occ S3v2_demo ≤ 20 := C01_capacity_S3FIFOdv2_partial S3v2_K (by decide) 1 _ S3v2_demo_ok _ _ S3v2_gets

example : S3FIFOdv2.algo.occ S3v2_demo = (bytes 0 (S3v2_cached S3v2_demo) : Nat) := (C02_accounting_S3FIFOdv2_partial S3v2_K (by decide) 1 _ S3v2_demo_ok _ _ S3v2_gets).1

/-- object 3 is cached, in the main queue -/
example : 3 ∈ (S3v2_cached S3v2_demo).ids ∧ ∃ s', S3FIFOdv2.get S3v2_demo (S3v2_req 3 2) = .ok (decide (3 ∈ (S3v2_cached S3v2_demo).ids), s') :=
  ⟨by decide +kernel, (C03_hitIffCached_S3FIFOdv2_partial S3v2_K (by decide) 1 _ _ (S3v2_ok_snoc _ (by decide)) _ _ S3v2_gets).1⟩

/-- object 16 is remembered -/
example : ∃ s', S3FIFOdv2.get S3v2_demo (S3v2_req 16 4) = .ok (false, s') ∧ (16, 4) ∈ S3v2_cached s' :=
  C05_admittedMissCached_S3FIFOdv2_partial S3v2_K (by decide) 1 _ _ (S3v2_ok_snoc _ (by decide)) _ _ S3v2_gets (by decide +kernel) (Or.inr ⟨by decide, by decide +kernel⟩)

example : ∃ s', S3FIFOdv2.get S3v2_demo (S3v2_req 20 5) = .ok (false, s') ∧ (S3v2_cached s').Perm (S3v2_cached S3v2_demo) ∧
    (S3v2_view s').small = (S3v2_view S3v2_demo).small ∧ (S3v2_view s').main = (S3v2_view S3v2_demo).main :=
  C08_rejectQuiet_S3FIFOdv2_partial S3v2_K (by decide) 1 _ _ (S3v2_ok_snoc _ (by decide)) _ _ S3v2_gets (by decide +kernel) (by decide)

/-- the thresholds of the demo: nine objects with nine hits each -/
example : (S3v2_view S3v2_demo).keep = 2 ^ 3 ∧ Enough [⟨1, 2, 9⟩, ⟨2, 2, 9⟩] 3 ∧ ¬ Enough [⟨1, 2, 9⟩, ⟨2, 2, 9⟩] 2 := by
  refine ⟨S3v2_demo_reached.2.2.2.2.1, ?_, ?_⟩ <;> decide

/-! ### what goes wrong -/

/-- Ten objects of one byte move to the main queue; one of them is evicted; the 999th request has been served. -/
def S3v2_fill : List Req := (List.range 10).flatMap (fun i => List.replicate 2 (S3v2_req i 1)) ++ List.replicate 979 (S3v2_req 10 1)

def S3v2_full : S3FIFOdv2.State := stOf (S3FIFOdv2.init 10 2 9 1) (S3FIFOdv2.gets (S3FIFOdv2.init 10 2 9 1) S3v2_fill)
def S3v2_removed : S3FIFOdv2.State := stOf (S3FIFOdv2.init 10 2 9 1) (S3FIFOdv2.remove S3v2_full 5)

/-- C09 fails after `remove`: S3FIFOdv2 does not update the counters of objects by frequency when the client removes an object of the main queue; the next request that looks at the
thresholds, here the 1000th, stops the process. -/
theorem C09_removeAborts_fails_S3FIFOdv2 : ∃ out s s', S3FIFOdv2.gets (S3FIFOdv2.init 10 2 9 1) S3v2_fill = .ok (out, s) ∧ S3FIFOdv2.remove s 5 = .ok (true, s') ∧
    S3FIFOdv2.get s' (S3v2_req 10 1) = .error .abort := by
  obtain ⟨out, s, h⟩ := C09_safe_S3FIFOdv2_partial ⟨10, 2, 9⟩ (by decide) 1 S3v2_fill ⟨by decide +kernel, by decide +kernel⟩
  have h' : S3FIFOdv2.gets (S3FIFOdv2.init 10 2 9 1) S3v2_fill = .ok (out, s) := h
  have hs : S3v2_full = s := by rw [S3v2_full, h']; rfl
  subst hs
  exact ⟨out, _, S3v2_removed, h', res_ok _ (by decide +kernel), res_err (by decide +kernel)⟩

/-- C05 fails for an object as large as the small queue: `can_insert` accepts it, objects are evicted to make room for it, and it is not inserted. -/
theorem C05_equalSize_fails_S3FIFOdv2 : ∃ out s out' s', S3FIFOdv2.gets (S3FIFOdv2.init 4 2 3 1) [S3v2_req 1 1, S3v2_req 2 1, S3v2_req 3 1] = .ok (out, s) ∧
    (S3v2_cached s).ids = [3, 2, 1] ∧ (S3FIFOdv2.algo.canInsert s (S3v2_req 4 2)).1 = true ∧
    S3FIFOdv2.get s (S3v2_req 4 2) = .ok (out', s') ∧ (S3v2_cached s').ids = [3, 2] := by
  refine ⟨_, _, _, _, rfl, ?_, ?_, rfl, ?_⟩ <;> decide +kernel

end Verif.Props
