import Verif.Spec.Earned
import Verif.Spec.Cond
import Verif.Proof.DemandPaging
/-!
# Hits: helper lemmas
-/

namespace Verif.Spec
open Verif

variable {σ : Type} {A : Algo σ} {cached : σ → Contents} {s0 : σ} {okOp : Op → Prop}

theorem earnedIf (h3 : HitIffCachedIf A cached s0 okOp) (h4 : NoPhantom A cached s0 okOp) : HitsAreEarned A s0 okOp := by
  intro ops out s ho hr r s' hok hg
  have hb := (h3 ops out s ho hr).2.2 r true s' hok hg
  have hin : r.id ∈ (cached s).ids := by simpa using hb.symm
  obtain ⟨x, hx, hxe⟩ := List.mem_map.1 hin
  obtain ⟨pre, op, post, q, e1, e2, e3, _, e5⟩ := (h4 ops out s ho hr).2 x hx
  have hxe' : x.1 = r.id := hxe
  exact ⟨pre, op, post, q, e1, e2, e3.trans hxe', hxe' ▸ e5⟩

theorem earned (h3 : HitIffCached A cached s0 okOp) (h4 : NoPhantom A cached s0 okOp) : HitsAreEarned A s0 okOp := by
  intro ops out s ho hr r s' hok hg
  obtain ⟨s2, h2⟩ := (h3 ops out s ho hr).2.2 r hok
  rw [hg] at h2
  have hb := congrArg Prod.fst (Except.ok.inj h2)
  have hin : r.id ∈ (cached s).ids := by simpa using hb.symm
  obtain ⟨x, hx, hxe⟩ := List.mem_map.1 hin
  obtain ⟨pre, op, post, q, e1, e2, e3, _, e5⟩ := (h4 ops out s ho hr).2 x hx
  have hxe' : x.1 = r.id := hxe
  exact ⟨pre, op, post, q, e1, e2, e3.trans hxe', hxe' ▸ e5⟩

theorem gets_split {A : Algo σ} : ∀ (pre : List Req) (r : Req) (post : List Req) (s : σ) (hits : List Bool) (s' : σ), A.gets s (pre ++ r :: post) = .ok (hits, s') →
    ∃ out s1 b s2, A.gets s pre = .ok (out, s1) ∧ A.get s1 r = .ok (b, s2) ∧ hits[pre.length]? = some b
  | [], r, post, s, hits, s', h => by
    simp only [List.nil_append, Algo.gets] at h
    obtain ⟨⟨b, s1⟩, h1, h⟩ := Res.bind_eq_ok.1 h
    obtain ⟨⟨bs, s2⟩, h2, h⟩ := Res.bind_eq_ok.1 h
    simp only [Except.ok.injEq, Prod.mk.injEq] at h
    exact ⟨[], s, b, s1, rfl, h1, by rw [← h.1]; rfl⟩
  | p :: pre, r, post, s, hits, s', h => by
    simp only [List.cons_append, Algo.gets] at h
    obtain ⟨⟨b, s1⟩, h1, h⟩ := Res.bind_eq_ok.1 h
    obtain ⟨⟨bs, s2⟩, h2, h⟩ := Res.bind_eq_ok.1 h
    simp only [Except.ok.injEq, Prod.mk.injEq] at h
    obtain ⟨out, t1, c, t2, k1, k2, k3⟩ := gets_split pre r post s1 bs s2 h2
    refine ⟨b :: out, t1, c, t2, ?_, k2, ?_⟩
    · simp only [Algo.gets, h1, Res.bind_ok, k1]
    · rw [← h.1]; simpa using k3

theorem HitsAreEarned.firstMisses {p : Perms} {ok : Req → Prop} (h : HitsAreEarned A s0 (Calls p ok)) : FirstMisses A s0 ok := by
  intro trace hits s hok hg pre r post e hni
  subst e
  obtain ⟨out, s1, b, s2, h1, h2, h3⟩ := gets_split pre r post s0 hits s hg
  rw [h3]
  cases b with
  | false => rfl
  | true =>
    exfalso
    have hoks : ∀ op ∈ pre.map Op.get, Calls p ok op := fun op ho => by
      obtain ⟨q, hq, rfl⟩ := List.mem_map.1 ho
      exact hok q (List.mem_append_left _ hq)
    obtain ⟨a, op, c, q, e1, e2, e3, _⟩ := h _ out s1 hoks (by rw [Reaches, run_gets]; exact h1) r s2 (hok r (by simp)) h2
    have hop : op ∈ pre.map Op.get := by rw [e1]; simp
    obtain ⟨q', hq', rfl⟩ := List.mem_map.1 hop
    have : q' = q := by simpa [insertedBy] using e2
    subst this
    exact hni (List.mem_map.2 ⟨q', hq', e3⟩)

end Verif.Spec
