import Verif.Proof.S3Rename
import Verif.Props.S3FIFO
/-!
# S3FIFO is S3-FIFO, call by call

`Verif/Spec/S3Queue.lean` states S3-FIFO on two lists of objects with their numbers of hits and a list of remembered objects.
-/

namespace Verif.Props
open Verif Verif.Spec
set_option maxRecDepth 20000

/-- the two queues, oldest object first, with the hits counted, the ghost queue, newest first, and whether the last lookup found its object there -/
def S3FIFO_view (s : S3FIFO.State) : S3.St := S3Queue.view s

/-- C21: whatever the client calls, no call fails, the answers are those of S3-FIFO, and so are the contents, order and hits of the two queues and the ghost queue. -/
theorem C21_follows_S3FIFO (cs fs gs thr : Nat) (h : fs ≤ cs) (ops : List Op) :
    ∃ s, Reaches S3FIFO.algo (S3FIFO.init cs fs gs thr) ops (S3.run ⟨cs, fs, gs, thr⟩ {} ops).1 s ∧
      S3FIFO_view s = (S3.run ⟨cs, fs, gs, thr⟩ {} ops).2 := by
  obtain ⟨s, h1, h2⟩ := S3Queue.run_spec (K := ⟨cs, fs, gs, thr⟩) h ops _ _ (S3Queue.Rep.init ⟨cs, fs, gs, thr⟩)
  exact ⟨s, h1, h2.view⟩

/-- the demo run, with hits in both queues, ghost hits, evictions from both queues and removals -/
example : S3FIFO_view S3FIFO_demo = ⟨[⟨10, 2, 0⟩], [⟨6, 1, 0⟩, ⟨1, 3, 1⟩, ⟨3, 3, 0⟩, ⟨5, 1, 0⟩], [(8, 1)], false⟩ := by decide

/-- C107 for S3FIFO: the three sizes and the sizes of the objects in another unit, the objects under other names. -/
theorem C107_namesAndUnits_S3FIFO (f : ObjId → ObjId) (k : Nat) (hf : Function.Injective f) (hk : 0 < k) (cs fs gs thr : Nat) (h : fs ≤ cs) (ops : List Op)
    (hm : ∀ op ∈ ops, Measurable k 0 op) :
    ∃ out s s', Reaches S3FIFO.algo (S3FIFO.init cs fs gs thr) ops out s ∧
      Reaches S3FIFO.algo (S3FIFO.init (k * cs) (k * fs) (k * gs) thr) (ops.map (renameOp f k)) out s' := by
  obtain ⟨s, h1, _⟩ := C21_follows_S3FIFO cs fs gs thr h ops
  obtain ⟨s', h3, _⟩ := C21_follows_S3FIFO (k * cs) (k * fs) (k * gs) thr (Nat.mul_le_mul_left k h) (ops.map (renameOp f k))
  have e := S3Queue.rrun (f := f) (K := ⟨cs, fs, gs, thr⟩) hf hk ops {} (by intro x hx; cases hx) hm
  have e' : S3.run ⟨k * cs, k * fs, k * gs, thr⟩ {} (ops.map (renameOp f k)) = _ := e
  rw [e'] at h3
  exact ⟨_, s, s', h1, h3⟩

example : ∀ op ∈ S3FIFO_ops, Measurable 1000 0 op := by
  intro op h
  simp only [S3FIFO_ops, List.mem_cons, List.not_mem_nil, or_false] at h
  rcases h with rfl | rfl | rfl | rfl | rfl | rfl | rfl | rfl | rfl | rfl | rfl | rfl | rfl | rfl | rfl | rfl | rfl | rfl | rfl | rfl | rfl <;>
    simp [Measurable, insertedBy, u32]

end Verif.Props
