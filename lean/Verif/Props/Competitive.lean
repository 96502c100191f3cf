import Verif.Proof.Competitive
import Verif.Props.BeladyBound
import Verif.Props.MRU
/-!
# C100: LRU and FIFO are competitive

Objects of one size, no admission policy. A cache with room for `k` objects that runs LRU or FIFO is compared with the best that any demand cache with room for `h ≤ k` objects can do
on the same trace, which by C18 is what Belady does: it has at most `k / (k - h + 1)` times as many misses, apart from `k` misses that fill it. With `h = k`: at most `k` times as many; with
`h` half of `k`: about twice as many. MRU and LFU have no such bound.
-/

namespace Verif.Props
open Verif Verif.Spec
set_option linter.unusedVariables false

/-- On this trace of objects of `sz` bytes the cache of `cs` bytes answers every request, and against every way to run a cache with room for `h` objects it has at most `k / (k - h + 1)` times
as many misses, and `k` more. -/
def CompetitiveOn {σ : Type} (A : Algo σ) (s0 : σ) (cs md sz : Nat) (trace : List Req) : Prop :=
  ∃ out s, A.gets s0 trace = .ok (out, s) ∧
    ∀ k h hits, k = cs / (sz + md) → h ≤ k → Play h ∅ (trace.map Req.id) hits → (k - h + 1) * out.count false ≤ k * (trace.length - hits) + (k - h + 1) * k

section
variable {cs md sz : Nat} (hpos : 0 < sz + md) (hfit : sz + md ≤ cs) (hsm : sz + md < u32) {trace : List Req} (hs : ∀ r ∈ trace, r.size = sz)
include hpos hfit hsm hs

theorem competitiveOn {σ : Type} {A : Algo σ} {s0 : σ} {view : σ → TState Contents} (move : Bool)
    (hf : Follows A s0 (Calls {} (SizeOk md)) (Competitive.disc move) cs md ⟨[], .none⟩ view) : CompetitiveOn A s0 cs md sz trace := by
  have hok : ∀ r ∈ trace, Calls {} (SizeOk md) (.get r) := by
    intro r hr
    show SizeOk md r
    unfold SizeOk
    rw [hs r hr, Nat.mod_eq_of_lt (by omega)]
    exact hsm
  obtain ⟨out, s, h1, _⟩ := hf (trace.map Op.get) (by simpa using hok)
  have h1' : A.gets s0 trace = .ok (out, s) := by rw [← run_gets]; exact h1
  refine ⟨out, s, h1', fun k h hits hk hh hp => ?_⟩
  obtain ⟨out', s', h2, h3⟩ := Competitive.follows_competitive move hf hpos hfit (by omega) hok hs hk hh hp
  rw [h1'] at h2
  cases h2
  exact h3

theorem C100_competitive_LRU : CompetitiveOn LRU.algo (LRU.init cs md .none) cs md sz trace :=
  competitiveOn hpos hfit hsm hs true (C11_lru_LRU cs md .none)

theorem C100_competitive_FIFO : CompetitiveOn FIFO.algo (FIFO.init cs md .none) cs md sz trace :=
  competitiveOn hpos hfit hsm hs false (C13_fifo_FIFO cs md .none)

end

/-- The same with the modelled Belady cache, of `cs'` bytes, as the opponent. -/
def CompetitiveWithBelady {σ : Type} (A : Algo σ) (s0 : σ) (cs cs' md sz : Nat) (trace : List Req) : Prop :=
  ∃ out s best s', A.gets s0 trace = .ok (out, s) ∧ Belady.algo.gets (Belady.init cs' md .none) trace = .ok (best, s') ∧
    ∀ k h, k = cs / (sz + md) → h = cs' / (sz + md) → (k - h + 1) * out.count false ≤ k * best.count false + (k - h + 1) * k

theorem gets_length {σ : Type} (A : Algo σ) : ∀ (rs : List Req) (s : σ) {out : List Bool} {s' : σ}, A.gets s rs = .ok (out, s') → out.length = rs.length
  | [], s, out, s', h => by cases h; rfl
  | r :: rs, s, out, s', h => by
    simp only [Algo.gets] at h
    cases h1 : A.get s r with
    | error e => rw [h1] at h; cases h
    | ok p =>
      rw [h1] at h
      cases h2 : A.gets p.2 rs with
      | error e => simp [h2] at h
      | ok q =>
        have := gets_length A rs p.2 (out := q.1) (s' := q.2) h2
        simp [h2] at h
        rw [← h.1]
        simp [this]

theorem count_bools : ∀ l : List Bool, l.count true + l.count false = l.length
  | [] => rfl
  | b :: l => by
    have := count_bools l
    cases b <;> simp <;> omega

theorem competitiveWithBelady {σ : Type} {A : Algo σ} {s0 : σ} {cs cs' md sz : Nat} {vt : Nat → Int} {trace : List Req} (h : OneSizeTrace cs' md sz vt trace) (hle : cs' ≤ cs)
    (hc : CompetitiveOn A s0 cs md sz trace) : CompetitiveWithBelady A s0 cs cs' md sz trace := by
  obtain ⟨out, s, h1, h2⟩ := hc
  obtain ⟨best, s', h3, h4, _⟩ := C18_optimal_Belady cs' md sz vt trace h.pos h.fits h.small h.sizes h.next h.inc h.start h.exact
  refine ⟨out, s, best, s', h1, h3, fun k j hk hj => ?_⟩
  have hjk : j ≤ k := by rw [hk, hj]; exact Nat.div_le_div_right hle
  have h5 := h2 k j _ hk hjk (by rw [hj]; exact h4)
  have h6 : trace.length - best.count true = best.count false := by
    rw [← gets_length _ _ _ h3]
    have := count_bools best
    omega
  rw [h6] at h5
  exact h5

theorem C100_competitiveWithBelady_LRU {cs cs' md sz : Nat} {vt : Nat → Int} {trace : List Req} (h : OneSizeTrace cs' md sz vt trace) (hle : cs' ≤ cs) :
    CompetitiveWithBelady LRU.algo (LRU.init cs md .none) cs cs' md sz trace :=
  competitiveWithBelady h hle (C100_competitive_LRU h.pos (h.fits.trans hle) h.small h.sizes)

theorem C100_competitiveWithBelady_FIFO {cs cs' md sz : Nat} {vt : Nat → Int} {trace : List Req} (h : OneSizeTrace cs' md sz vt trace) (hle : cs' ≤ cs) :
    CompetitiveWithBelady FIFO.algo (FIFO.init cs md .none) cs cs' md sz trace :=
  competitiveWithBelady h hle (C100_competitive_FIFO h.pos (h.fits.trans hle) h.small h.sizes)

/-- LRU with room for two objects and Belady with room for two and for one, on the trace 1 2 3 1 2 3 1: seven misses, against five and seven -/
example : CompetitiveWithBelady LRU.algo (LRU.init 10 0 .none) 10 10 0 5 beladyTrace :=
  C100_competitiveWithBelady_LRU beladyTrace_oneSize (Nat.le_refl _)

example : ((LRU.algo.gets (LRU.init 10 0 .none) beladyTrace).map fun p => p.1.count false) = .ok 7 ∧ ((Belady.algo.gets (Belady.init 10 0 .none) beladyTrace).map fun p => p.1.count false) = .ok 5 := by
  decide +kernel

/-! ## Two algorithms without a bound -/

/-- `3 2 3 2 …`, `n` times -/
def seesaw : Nat → List Req
  | 0 => []
  | n + 1 => ⟨3, 1, -2⟩ :: ⟨2, 1, -2⟩ :: seesaw n

/-- `1 1 2` and then `3 2 3 2 …` -/
def seesawTrace (n : Nat) : List Req := ⟨1, 1, -2⟩ :: ⟨1, 1, -2⟩ :: ⟨2, 1, -2⟩ :: seesaw (n + 1)

theorem seesaw_size : ∀ (n : Nat), ∀ r ∈ seesaw n, r.size = 1
  | 0, r, h => by simp [seesaw] at h
  | n + 1, r, h => by
    simp only [seesaw, List.mem_cons] at h
    rcases h with rfl | rfl | h
    · rfl
    · rfl
    · exact seesaw_size n r h

theorem seesawTrace_size (n : Nat) : ∀ r ∈ seesawTrace n, r.size = 1 := by
  intro r h
  simp only [seesawTrace, List.mem_cons] at h
  rcases h with rfl | rfl | rfl | h
  · rfl
  · rfl
  · rfl
  · exact seesaw_size _ r h

theorem seesaw_length : ∀ n, (seesaw n).length = 2 * n
  | 0 => rfl
  | n + 1 => by simp [seesaw, seesaw_length n]; omega

theorem seesawTrace_length (n : Nat) : (seesawTrace n).length = 2 * n + 5 := by simp [seesawTrace, seesaw_length]; omega

theorem seesaw_play : ∀ n, Play 2 {2, 3} ((seesaw n).map Req.id) (2 * n)
  | 0 => Play.done _
  | n + 1 => Play.hit (by decide) (Finset.Subset.refl _) (Play.hit (by decide) (Finset.Subset.refl _) (seesaw_play n))

/-- with room for two objects all but three requests can be hits -/
theorem seesawTrace_play (n : Nat) : Play 2 ∅ ((seesawTrace n).map Req.id) (2 * n + 2) :=
  Play.miss (c' := {1}) (by decide) (by decide) (by decide) (by decide)
    (Play.hit (c' := {1}) (by decide) (by decide)
      (Play.miss (c' := {1, 2}) (by decide) (by decide) (by decide) (by decide)
        (Play.miss (c' := {2, 3}) (by decide) (by decide) (by decide) (by decide)
          (Play.hit (c' := {2, 3}) (by decide) (by decide) (seesaw_play n)))))

theorem seesaw_mru : ∀ n, ∃ t, trun mru 2 0 ⟨[(2, 1), (1, 1)], .none⟩ ((seesaw n).map Op.get) = (List.replicate (2 * n) false, t)
  | 0 => ⟨_, rfl⟩
  | n + 1 => by
    obtain ⟨t, h⟩ := seesaw_mru n
    refine ⟨t, ?_⟩
    have e1 : tstep mru 2 0 ⟨[(2, 1), (1, 1)], .none⟩ (.get ⟨3, 1, -2⟩) = (false, ⟨[(3, 1), (1, 1)], .none⟩) := by rfl
    have e2 : tstep mru 2 0 ⟨[(3, 1), (1, 1)], .none⟩ (.get ⟨2, 1, -2⟩) = (false, ⟨[(2, 1), (1, 1)], .none⟩) := by rfl
    simp only [seesaw, List.map_cons, trun, e1, e2, h]
    rfl

theorem seesaw_lfu : ∀ n, ∃ t, trun lfu 2 0 ⟨[⟨2, 1, 1⟩, ⟨1, 1, 2⟩], .none⟩ ((seesaw n).map Op.get) = (List.replicate (2 * n) false, t)
  | 0 => ⟨_, rfl⟩
  | n + 1 => by
    obtain ⟨t, h⟩ := seesaw_lfu n
    refine ⟨t, ?_⟩
    have e1 : tstep lfu 2 0 ⟨[⟨2, 1, 1⟩, ⟨1, 1, 2⟩], .none⟩ (.get ⟨3, 1, -2⟩) = (false, ⟨[⟨3, 1, 1⟩, ⟨1, 1, 2⟩], .none⟩) := by rfl
    have e2 : tstep lfu 2 0 ⟨[⟨3, 1, 1⟩, ⟨1, 1, 2⟩], .none⟩ (.get ⟨2, 1, -2⟩) = (false, ⟨[⟨2, 1, 1⟩, ⟨1, 1, 2⟩], .none⟩) := by rfl
    simp only [seesaw, List.map_cons, trun, e1, e2, h]
    rfl

/-- C100 is special to LRU and FIFO: MRU with room for two objects can miss any number of times where three misses are enough. -/
theorem C100_unbounded_fails_MRU (n : Nat) : ∃ trace : List Req, (∀ r ∈ trace, r.size = 1) ∧
    (∃ out s, MRU.algo.gets (MRU.init 2 0 .none) trace = .ok (out, s) ∧ n ≤ out.count false) ∧ ∃ hits, Play 2 ∅ (trace.map Req.id) hits ∧ trace.length - hits = 3 := by
  refine ⟨seesawTrace n, seesawTrace_size n, ?_, 2 * n + 2, seesawTrace_play n, by rw [seesawTrace_length]; omega⟩
  obtain ⟨out, s, h1, h2⟩ := C17_mru_MRU_partial 2 0 .none ((seesawTrace n).map Op.get) (by
    intro op ho
    obtain ⟨r, hr, rfl⟩ := List.mem_map.1 ho
    show AnyTwoFit 2 0 r
    unfold AnyTwoFit SizeOk
    rw [seesawTrace_size n r hr]
    decide)
  refine ⟨out, s, by rw [← run_gets]; exact h1, ?_⟩
  obtain ⟨t, ht⟩ := seesaw_mru (n + 1)
  have e1 : tstep mru 2 0 ⟨[], .none⟩ (.get ⟨1, 1, -2⟩) = (false, ⟨[(1, 1)], .none⟩) := by rfl
  have e2 : tstep mru 2 0 ⟨[(1, 1)], .none⟩ (.get ⟨1, 1, -2⟩) = (true, ⟨[(1, 1)], .none⟩) := by rfl
  have e3 : tstep mru 2 0 ⟨[(1, 1)], .none⟩ (.get ⟨2, 1, -2⟩) = (false, ⟨[(2, 1), (1, 1)], .none⟩) := by rfl
  simp only [seesawTrace, List.map_cons, trun, e1, e2, e3, ht] at h2
  have := congrArg Prod.fst h2
  simp only at this
  rw [← this]
  simp
  omega

/-- C100 is special to LRU and FIFO: so can LFU. -/
theorem C100_unbounded_fails_LFU (n : Nat) : ∃ trace : List Req, (∀ r ∈ trace, r.size = 1) ∧
    (∃ out s, LFU.algo.gets (LFU.init 2 0 .none) trace = .ok (out, s) ∧ n ≤ out.count false) ∧ ∃ hits, Play 2 ∅ (trace.map Req.id) hits ∧ trace.length - hits = 3 := by
  refine ⟨seesawTrace n, seesawTrace_size n, ?_, 2 * n + 2, seesawTrace_play n, by rw [seesawTrace_length]; omega⟩
  obtain ⟨out, s, h1, h2⟩ := C16_lfu_LFU 2 0 .none ((seesawTrace n).map Op.get) (by
    intro op ho
    obtain ⟨r, hr, rfl⟩ := List.mem_map.1 ho
    show SizeOk 0 r
    unfold SizeOk
    rw [seesawTrace_size n r hr]
    decide)
  refine ⟨out, s, by rw [← run_gets]; exact h1, ?_⟩
  obtain ⟨t, ht⟩ := seesaw_lfu (n + 1)
  have e1 : tstep lfu 2 0 ⟨[], .none⟩ (.get ⟨1, 1, -2⟩) = (false, ⟨[⟨1, 1, 1⟩], .none⟩) := by rfl
  have e2 : tstep lfu 2 0 ⟨[⟨1, 1, 1⟩], .none⟩ (.get ⟨1, 1, -2⟩) = (true, ⟨[⟨1, 1, 2⟩], .none⟩) := by rfl
  have e3 : tstep lfu 2 0 ⟨[⟨1, 1, 2⟩], .none⟩ (.get ⟨2, 1, -2⟩) = (false, ⟨[⟨2, 1, 1⟩, ⟨1, 1, 2⟩], .none⟩) := by rfl
  simp only [seesawTrace, List.map_cons, trun, e1, e2, e3, ht] at h2
  have := congrArg Prod.fst h2
  simp only at this
  rw [← this]
  simp
  omega

end Verif.Props
