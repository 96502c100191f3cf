import Verif.Proof.Inclusion
import Verif.Props.BeladyBound
import Verif.Props.MRU
import Verif.Props.LRUStack
import Verif.Props.FIFO
import Verif.Props.LFU
import Verif.Props.Clock
import Verif.Props.Sieve
import Verif.Props.TwoQ
import Verif.Props.SLRU
/-!
# C110: a larger cache does not miss more

What one expects of a miss ratio curve. It holds for LRU, MRU and Belady, and fails for the others.
-/

namespace Verif.Props
open Verif Verif.Spec
set_option maxRecDepth 20000

/-- so it counts at least as many hits -/
theorem asGood_hits {out out' : List Bool} (h : AsGood out out') : out.count true ≤ out'.count true := by
  unfold AsGood at h
  induction h with
  | nil => exact Nat.le_refl _
  | cons h _ ih =>
    rename_i x y _ _ _
    rw [List.count_cons, List.count_cons]
    cases x <;> cases y <;> simp at h ⊢ <;> omega

/-- C110 for LRU, with objects of different sizes: if all requested objects fit into the smaller cache and each keeps its size, then request by request the larger cache hits when the smaller one does,
and it always holds what the smaller one holds, also with removals, lookups and evictions in between.  Missing: objects that fit only into the larger cache (`C110_largeObject_fails_LRU`). -/
theorem C110_largerNoWorse_LRU_partial (cs cs' md : Nat) (hcs : cs ≤ cs') (sz : ObjId → Nat) (ops : List Op) (h : ∀ op ∈ ops, FitsSmaller cs md sz op) :
    ∃ out s out' s', Reaches LRU.algo (LRU.init cs md .none) ops out s ∧ Reaches LRU.algo (LRU.init cs' md .none) ops out' s' ∧ AsGood out out' ∧
      ∀ x ∈ LRU_cached s, x ∈ LRU_cached s' := by
  have hok : ∀ op ∈ ops, Calls {} (SizeOk md) op := by
    intro op ho
    have := h op ho
    cases op with
    | get r =>
      obtain ⟨_, _, h3⟩ := this
      show r.size % u32 + md < u32
      rw [Nat.mod_eq_of_lt (by omega)]
      exact h3
    | find r u => cases u <;> trivial
    | remove id => trivial
    | evict r => trivial
    | insert r => exact this.elim
  obtain ⟨out, s, h1, h2⟩ := C11_lru_LRU cs md .none ops hok
  obtain ⟨out', s', h3, h4⟩ := C11_lru_LRU cs' md .none ops hok
  obtain ⟨h5, h6⟩ := Inclusion.run_mono hcs ops [] [] (List.prefix_refl _) ⟨List.nodup_nil, fun x hx => by cases hx⟩ h
  rw [h2, h4] at h5 h6
  have p := ((LRU.strong cs md).reach (QInv.init cs md .none) hok h1).order_perm
  have p' := ((LRU.strong cs' md).reach (QInv.init cs' md .none) hok h3).order_perm
  exact ⟨out, s, out', s', h1, h3, h5, fun x hx => p'.subset (h6.subset (p.symm.subset hx))⟩

/-- The calls of the sample run of C110 for LRU on caches of 10 and 13 bytes; the objects have 5, 4, 1 and 3 bytes. -/
def inclusionCalls : List Op := [.get ⟨1, 5, -2⟩, .get ⟨2, 4, -2⟩, .get ⟨3, 1, -2⟩, .find ⟨1, 5, -2⟩ false, .get ⟨4, 3, -2⟩, .get ⟨1, 5, -2⟩, .remove 3, .evict ⟨1, 5, -2⟩, .get ⟨4, 3, -2⟩]

/-- The hypothesis is met, and the larger cache hits twice more. -/
example : (∀ op ∈ inclusionCalls, FitsSmaller 10 0 (fun id => [0, 5, 4, 1, 3].getD id 0) op) ∧
    (LRU.algo.run (LRU.init 10 0 .none) inclusionCalls).map (fun p => (p.1, LRU_cached p.2)) =
      .ok ([false, false, false, true, false, false, true, true, false], [(4, 3), (1, 5)]) ∧
    (LRU.algo.run (LRU.init 13 0 .none) inclusionCalls).map (fun p => (p.1, LRU_cached p.2)) =
      .ok ([false, false, false, true, false, true, true, true, true], [(4, 3), (1, 5)]) := by
  refine ⟨?_, by decide +kernel, by decide +kernel⟩
  intro op h
  simp only [inclusionCalls, List.mem_cons, List.not_mem_nil, or_false] at h
  rcases h with rfl | rfl | rfl | rfl | rfl | rfl | rfl | rfl | rfl <;> first | trivial | exact ⟨by decide, by decide, by decide⟩

/-- C110 for MRU, with objects of one size of which any two fit into the smaller cache. Missing: objects of different sizes, and caches that hold one object only, where `MRU_evict` crashes. -/
theorem C110_largerNoWorse_MRU_partial (cs cs' md z : Nat) (hcs : cs ≤ cs') (hu : 0 < z + md) (hfit : 2 * (z + md) ≤ cs) (hz : z + md < u32) (rs : List Req) (hrs : ∀ r ∈ rs, r.size = z) :
    ∃ out s out' s', MRU.algo.gets (MRU.init cs md .none) rs = .ok (out, s) ∧ MRU.algo.gets (MRU.init cs' md .none) rs = .ok (out', s') ∧ AsGood out out' ∧
      ∀ x ∈ MRU_cached s, x ∈ MRU_cached s' := by
  have hok : ∀ c, cs ≤ c → ∀ op ∈ rs.map Op.get, Calls { ev := false } (AnyTwoFit c md) op := by
    intro c hc op ho
    obtain ⟨r, hr, rfl⟩ := List.mem_map.1 ho
    have e := hrs r hr
    refine ⟨?_, .inl ?_⟩
    · show r.size % u32 + md < u32
      rw [e, Nat.mod_eq_of_lt (by omega)]
      exact hz
    · rw [e]; omega
  obtain ⟨out, s, h1, h2⟩ := C17_mru_MRU_partial cs md .none (rs.map .get) (hok cs (Nat.le_refl _))
  obtain ⟨out', s', h3, h4⟩ := C17_mru_MRU_partial cs' md .none (rs.map .get) (hok cs' hcs)
  have hk : 0 < cs / (z + md) := Nat.div_pos (by omega) hu
  obtain ⟨h5, h6⟩ := Inclusion.mru_run (md := md) hcs hu (by omega) hk rs [] []
    ⟨List.Sublist.refl _, ⟨List.nodup_nil, fun x hx => by cases hx⟩, by simp, Nat.zero_le _⟩ hrs
  rw [h2, h4] at h5 h6
  have p := ((MRU.strong cs md).reach (MRU.inv_init cs md .none) (hok cs (Nat.le_refl _)) h1).q.order_perm
  have p' := ((MRU.strong cs' md).reach (MRU.inv_init cs' md .none) (hok cs' hcs) h3).q.order_perm
  refine ⟨out, s, out', s', ?_, ?_, h5, fun x hx => p'.subset (h6.subset (p.symm.subset hx))⟩
  · exact (run_gets ..).symm.trans h1
  · exact (run_gets ..).symm.trans h3

/-- one object per number, all of size 1 -/
def unitRequests (l : List ObjId) : List Req := l.map fun i => ⟨i, 1, -2⟩

example : (MRU.algo.gets (MRU.init 2 0 .none) (unitRequests [1, 2, 3, 1, 2, 3])).map Prod.fst = .ok [false, false, false, true, false, true] ∧
    (MRU.algo.gets (MRU.init 3 0 .none) (unitRequests [1, 2, 3, 1, 2, 3])).map Prod.fst = .ok [false, false, false, true, true, true] := by decide +kernel

/-- C110 for Belady, with objects of one size: over any annotated trace the larger cache hits at least as often. Missing: objects of different sizes. -/
theorem C110_largerNoWorse_Belady_partial (cs cs' md sz : Nat) (hcs : cs ≤ cs') (vt : Nat → Int) (trace : List Req) (h : OneSizeTrace cs md sz vt trace) :
    ∃ out s out' s', Belady.algo.gets (Belady.init cs md .none) trace = .ok (out, s) ∧ Belady.algo.gets (Belady.init cs' md .none) trace = .ok (out', s') ∧
      out.count true ≤ out'.count true := by
  obtain ⟨out, s, h1, h2, _⟩ := C18_optimal_Belady cs md sz vt trace h.pos h.fits h.small h.sizes h.next h.inc h.start h.exact
  obtain ⟨out', s', h3, _, h4⟩ := C18_optimal_Belady cs' md sz vt trace h.pos (h.fits.trans hcs) h.small h.sizes h.next h.inc h.start h.exact
  exact ⟨out, s, out', s', h1, h3, h4 _ (Inclusion.play_mono (Nat.div_le_div_right hcs) h2)⟩

example : OneSizeTrace 1 0 1 (fun i => i) beladyScan := beladyScan_oneSize

/-- the same, as a computation -/
theorem hitsMore_of {σ} {A : Algo σ} {init : Nat → σ} {rs : List Req} {cs cs' : Nat} (n n' : Nat) (h : cs < cs') (h1 : (A.gets (init cs) rs).map (fun p => p.1.count true) = .ok n)
    (h2 : (A.gets (init cs') rs).map (fun p => p.1.count true) = .ok n') (h3 : n' < n) : HitsMore A init rs cs cs' := by
  refine ⟨h, ?_⟩
  cases e1 : A.gets (init cs) rs with
  | error e => rw [e1] at h1; cases h1
  | ok p =>
    cases e2 : A.gets (init cs') rs with
    | error e => rw [e2] at h2; cases h2
    | ok q =>
      rw [e1] at h1; rw [e2] at h2
      simp only [Except.map, Except.ok.injEq] at h1 h2
      exact ⟨p.1, p.2, q.1, q.2, rfl, rfl, by rw [h1, h2]; exact h3⟩

/-- C110 fails for LRU when an object fits only into the larger cache: there it pushes out everything else, while the smaller cache turns it away. -/
theorem C110_largeObject_fails_LRU : HitsMore LRU.algo (fun c => LRU.init c 0 .none) [⟨1, 1, -2⟩, ⟨2, 1, -2⟩, ⟨3, 3, -2⟩, ⟨1, 1, -2⟩] 2 3 :=
  hitsMore_of 1 0 (by decide) (by decide +kernel) (by decide +kernel) (by decide)

/-- C110 fails for FIFO (Belady's anomaly): 4 hits with room for three objects, 3 hits with room for four. -/
theorem C110_largerNoWorse_fails_FIFO : HitsMore FIFO.algo (fun c => FIFO.init c 0 .none) (unitRequests [2, 5, 3, 1, 2, 5, 4, 2, 4, 5, 3, 1, 4]) 3 4 :=
  hitsMore_of 4 3 (by decide) (by decide +kernel) (by decide +kernel) (by decide)

/-- C110 fails for LFU, because the frequency of an object that leaves is forgotten. -/
theorem C110_largerNoWorse_fails_LFU : HitsMore LFU.algo (fun c => LFU.init c 0 .none) (unitRequests [2, 4, 2, 1, 4, 1, 3, 2, 3, 2]) 2 3 :=
  hitsMore_of 4 3 (by decide) (by decide +kernel) (by decide +kernel) (by decide)

/-- C110 fails for Clock with one bit. -/
theorem C110_largerNoWorse_fails_Clock : HitsMore Clock.algo (fun c => Clock.init c 0 1 .none) (unitRequests [3, 1, 1, 3, 2, 4, 2]) 2 3 :=
  hitsMore_of 3 2 (by decide) (by decide +kernel) (by decide +kernel) (by decide)

/-- C110 fails for Sieve. -/
theorem C110_largerNoWorse_fails_Sieve : HitsMore Sieve.algo (fun c => Sieve.init c 0 .none) (unitRequests [3, 1, 1, 3, 2, 4, 2]) 2 3 :=
  hitsMore_of 3 2 (by decide) (by decide +kernel) (by decide +kernel) (by decide)

/-- C110 fails for SLRU with its four segments: 10 hits with segments of one object, 9 hits with segments of two. -/
theorem C110_largerNoWorse_fails_SLRU : HitsMore SLRU.algo (fun c => SLRU.init c 0 .none 4 (fun _ => c / 4))
    (unitRequests [9, 10, 10, 2, 2, 5, 1, 7, 5, 2, 6, 10, 3, 8, 9, 2, 9, 5, 9, 5]) 4 8 :=
  hitsMore_of 10 9 (by decide) (by decide +kernel) (by decide +kernel) (by decide)

/-- C110 fails for 2Q with its default shares (a quarter for the first queue, half as many remembered names). -/
theorem C110_largerNoWorse_fails_TwoQ : HitsMore TwoQ.algo (fun c => TwoQ.init c (c / 4) (c / 2) 0)
    (unitRequests [2, 5, 3, 4, 7, 7, 1, 3, 2, 4, 3, 6, 1, 7, 3, 7, 3, 5, 7, 4, 1, 3, 1, 5, 4]) 4 5 :=
  hitsMore_of 11 10 (by decide) (by decide +kernel) (by decide +kernel) (by decide)

end Verif.Props
