import Verif.Proof.MainCache
import Verif.Proof.Ghost
import Verif.Spec.TwoQ
/-!
# A cache inside a composite follows its textbook discipline
-/

namespace Verif
open Spec

/-- What a composite needs to know about a cache `M` of `ms` bytes it uses. -/
structure AmSim (M : Algo σ) (cached : σ → Contents) (Inv : σ → Prop) (D : Discipline τ) (view : σ → τ) (ms : Nat) : Prop where
  contents : ∀ {s}, Inv s → (D.contents (view s)).Perm (cached s)
  findHit : ∀ {s s'} (r : Req), Inv s → r.id ∈ (cached s).ids → M.find s r true = .ok (true, s') → view s' = D.onHit (view s) r
  evict : ∀ {s s'} (r : Req), Inv s → cached s ≠ [] → M.evict s r = .ok s' → view s' = D.evict (view s)
  remove : ∀ {s s'} (id : ObjId), Inv s → id ∈ (cached s).ids → M.remove s id = .ok (true, s') → view s' = D.remove (view s) id
  get : ∀ {s s'} {b : Bool} (r : Req), Inv s → M.get s r = .ok (b, s') → view s' = Spec.TwoQ.serve D ms (view s) r

theorem AmSim.ofSim {A : Algo σ} {base : σ → Base μ} {setBase : σ → Base μ → σ} {Inv : σ → Prop} {ms : Nat} {D : Discipline τ} {view : σ → τ}
    (S : SBSpec A base setBase Inv ms 0) (M : Sim A base setBase Inv ms 0 D view) :
    AmSim A (fun s => (base s).cached) (fun s => Inv s ∧ (base s).adm = .none) D view ms := by
  have lk : ∀ {s : σ} {id : ObjId}, id ∈ (base s).cached.ids → ∃ o, (base s).lookup id = some o := by
    intro s id hin
    cases hl : (base s).lookup id with
    | none => exact absurd hin (lookup_none_iff'.1 hl)
    | some o => exact ⟨o, rfl⟩
  refine ⟨fun h => M.contents h.1, ?_, ?_, ?_, ?_⟩
  · intro s s' r h hin hf
    obtain ⟨o, ho⟩ := lk hin
    exact (M.findHit r o h.1 ho hf).1
  · intro s s' r h hne he
    exact (M.evict r h.1 (by intro h0; simp [Base.cached, h0] at hne) he).1
  · intro s s' id h hin he
    obtain ⟨o, ho⟩ := lk hin
    exact (M.remove id o h.1 ho he).1
  · intro s s' b r h hg
    obtain ⟨b', s'', k1, _, k3⟩ := M.step S (.get r) (sizeOk_zero r) h.1
    rw [show A.step s (.get r) = A.get s r from rfl, hg] at k1
    cases k1
    have e := congrArg (fun x => x.2.pol) k3
    simp only [tstep] at e
    have ht : tview base view s = ⟨view s, .none⟩ := by simp only [tview, h.2]
    rw [ht] at e
    exact e.symm

theorem AmSim.lru (ms : Nat) : AmSim LRU.algo (fun s => s.base.cached) (PInv ms) Spec.lru QState.order ms :=
  have A := AmSim.ofSim (LRU.spec ms 0) (LRU.sim ms 0)
  ⟨fun h => A.contents ⟨h.q, h.adm⟩, fun r h => A.findHit r ⟨h.q, h.adm⟩, fun r h => A.evict r ⟨h.q, h.adm⟩, fun id h => A.remove id ⟨h.q, h.adm⟩,
    fun r h => A.get r ⟨h.q, h.adm⟩⟩

theorem AmSim.fifo (ms : Nat) : AmSim FIFO.algo (fun s => s.base.cached) (PInv ms) Spec.fifo QState.order ms :=
  have A := AmSim.ofSim (FIFO.spec ms 0) (FIFO.sim ms 0)
  ⟨fun h => A.contents ⟨h.q, h.adm⟩, fun r h => A.findHit r ⟨h.q, h.adm⟩, fun r h => A.evict r ⟨h.q, h.adm⟩, fun id h => A.remove id ⟨h.q, h.adm⟩,
    fun r h => A.get r ⟨h.q, h.adm⟩⟩

theorem AmSim.clock (ms mf : Nat) : AmSim Clock.algo (fun s => s.base.cached) (fun s => Clock.Inv ms 0 mf s ∧ s.base.adm = .none) (Spec.clock mf) Clock.view ms :=
  AmSim.ofSim (Clock.spec ms 0 mf) (Clock.sim ms 0 mf)

theorem PInv.order_ids {gs : Nat} {x : QState Unit} (h : PInv gs x) (i : ObjId) : i ∈ Contents.ids x.order ↔ i ∈ x.base.cached.ids :=
  (((AmSim.fifo gs).contents h).map Prod.fst).mem_iff

/-- Removing from a FIFO queue. -/
theorem PInv.order_remove {gs : Nat} {x x' : QState Unit} {b : Bool} (h : PInv gs x) (id : ObjId) (he : FIFO.algo.remove x id = .ok (b, x')) :
    x'.order = x.order.filter (fun y => y.1 ≠ id) := by
  obtain ⟨x'', h1, _⟩ := h.fifoRemove id
  rw [he] at h1
  injection h1 with h1
  injection h1 with hb h1
  by_cases hin : id ∈ x.base.cached.ids
  · rw [hb, decide_eq_true hin] at he
    exact (AmSim.fifo gs).remove id h hin he
  · have h2 := (FIFO.spec gs 0).removeMiss rfl id h.q (lookup_none_iff'.2 hin)
    rw [he] at h2
    injection h2 with h2
    injection h2 with _ h2
    rw [h2]
    exact (filter_ids_eq (fun hx => hin ((h.order_ids id).1 hx))).symm

theorem serve_fifo (n : Nat) (x : Contents) (i s : Nat) (a b : Int) : Spec.TwoQ.serve Spec.fifo n x ⟨i, s, a⟩ = Spec.TwoQ.serve Spec.fifo n x ⟨i, s, b⟩ := rfl

end Verif
