import Verif.Props.LRU
import Verif.Proof.Recency
/-!
# C12: the stack property of LRU

All requests have the same size `z` (unit size: `z = 1`, `md = 0`, and then `cs / (z + md) = cs`); there is no
admission policy.
-/

namespace Verif.Props
open Verif Verif.Spec

theorem calls_uniform {md z : Nat} {rs : List Req} (hz : z + md < u32) (hrs : ∀ r ∈ rs, r.size = z) :
    ∀ op ∈ rs.map Op.get, Calls {} (SizeOk md) op := by
  intro op hop
  obtain ⟨r, hr, rfl⟩ := List.mem_map.1 hop
  show r.size % u32 + md < u32
  rw [hrs r hr, Nat.mod_eq_of_lt (by omega)]
  exact hz

/-- C12: an LRU cache with room for `k = cs / (z + md)` objects holds exactly the `k` most recently used distinct objects,
in that order, and a request hits iff fewer than `k` distinct objects were used since the object's last use. -/
theorem C12_stack_LRU (cs md z : Nat) (rs : List Req) (hu : 0 < z + md) (hz : z + md < u32)
    (hrs : ∀ r ∈ rs, r.size = z) :
    ∃ s, Reaches LRU.algo (LRU.init cs md .none) (rs.map .get)
        (hitsByDistance (cs / (z + md)) [] (rs.map (·.id))) s ∧
      s.order = ((mostRecent (rs.map (·.id))).take (cs / (z + md))).map (fun id => (id, z)) := by
  obtain ⟨out, s, h1, h2⟩ := C11_lru_LRU cs md .none (rs.map .get) (calls_uniform hz hrs)
  have h3 := trun_uniform (C := cs) hu (show z < u32 by omega) rs hrs []
  have e : ((mostRecent []).take (cs / (z + md))).map (fun id => (id, z)) = [] := by simp [mostRecent]
  rw [e] at h3
  rw [h3] at h2
  injection h2 with h4 h5
  injection h5 with h6 h7
  subst h4
  exact ⟨s, h1, h6.symm⟩

/-- C12, inclusion: after the same trace everything in the smaller cache is in the larger one. -/
theorem C12_inclusion_LRU (cs cs' md z : Nat) (rs : List Req) (hu : 0 < z + md) (hz : z + md < u32)
    (hrs : ∀ r ∈ rs, r.size = z) (hcs : cs ≤ cs') (out out' : List Bool) (s s' : LRU.State)
    (h : Reaches LRU.algo (LRU.init cs md .none) (rs.map .get) out s)
    (h' : Reaches LRU.algo (LRU.init cs' md .none) (rs.map .get) out' s') :
    ∀ x ∈ LRU_cached s, x ∈ LRU_cached s' := by
  obtain ⟨t, h1, h2⟩ := C12_stack_LRU cs md z rs hu hz hrs
  obtain ⟨t', h1', h2'⟩ := C12_stack_LRU cs' md z rs hu hz hrs
  unfold Reaches at h h' h1 h1'
  rw [h] at h1; cases h1
  rw [h'] at h1'; cases h1'
  have hc := calls_uniform hz hrs
  have p := ((LRU.strong cs md).reach (QInv.init cs md .none) hc h).order_perm
  have p' := ((LRU.strong cs' md).reach (QInv.init cs' md .none) hc h').order_perm
  intro x hx
  have := p.symm.subset hx
  apply p'.subset
  rw [h2] at this
  rw [h2']
  exact List.map_subset _ (List.take_subset_take_left _ (Nat.div_le_div_right hcs)) this

/-- C12, misses: a larger cache never misses more often. -/
theorem C12_misses_LRU (cs cs' md z : Nat) (rs : List Req) (hu : 0 < z + md) (hz : z + md < u32)
    (hrs : ∀ r ∈ rs, r.size = z) (hcs : cs ≤ cs') (out out' : List Bool) (s s' : LRU.State)
    (h : Reaches LRU.algo (LRU.init cs md .none) (rs.map .get) out s)
    (h' : Reaches LRU.algo (LRU.init cs' md .none) (rs.map .get) out' s') :
    out'.count false ≤ out.count false := by
  obtain ⟨t, h1, h2⟩ := C12_stack_LRU cs md z rs hu hz hrs
  obtain ⟨t', h1', h2'⟩ := C12_stack_LRU cs' md z rs hu hz hrs
  unfold Reaches at h h' h1 h1'
  rw [h] at h1; cases h1
  rw [h'] at h1'; cases h1'
  exact hitsByDistance_mono (Nat.div_le_div_right hcs) _ _

/-- a trace with hits and evictions -/
example : hitsByDistance 2 [] [1, 2, 1, 3, 2, 3, 1] = [false, false, true, false, false, true, false] ∧
    hitsByDistance 3 [] [1, 2, 1, 3, 2, 3, 1] = [false, false, true, false, true, true, true] ∧
    (mostRecent [1, 2, 1, 3, 2, 3, 1]).take 2 = [1, 3] := by decide

end Verif.Props
