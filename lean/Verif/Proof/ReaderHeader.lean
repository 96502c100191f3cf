import Verif.Proof.ReaderOps
/-!
# Traces with a header
-/

namespace Verif.Reader
open Verif Verif.Spec.Reader

/-- the records of a file with the header `hd` -/
theorem Good.laysHeader {T : TraceFormat} (g : Good T) {vs : List (Fld → Int)} (h : T.File vs) (hd : List Nat) :
    Lays T.F (hd ++ encodeAll T.L vs) hd.length (restrict T.obs) (TSk T) (fun a => a.set .size 1) (fun a => (a .id).toNat) (TRecs T vs) := by
  have L0 := g.lays h
  refine ⟨L0.item, ?_, ?_, L0.skip, L0.one, L0.id⟩
  · rw [List.length_append, L0.len]; omega
  · intro pre a post e x
    unfold TRecs at e
    obtain ⟨vp, rest, rfl, rfl, hrest⟩ := List.map_eq_append_iff.1 e
    obtain ⟨v, vq, rfl, rfl, rfl⟩ := List.map_eq_cons_iff.1 hrest
    obtain ⟨hf, ho⟩ := h.1 v (by simp)
    obtain ⟨y, ey, hy⟩ := g.dec v hf ho (hd ++ encodeAll T.L vp) (encodeAll T.L vq) x
    refine ⟨y, ?_, ?_⟩
    · rw [encodeAll_append, show encodeAll T.L (v :: vq) = encode T.L v ++ encodeAll T.L vq by simp [encodeAll], ← List.append_assoc,
        ← List.append_assoc]
      rw [List.length_append, encodeAll_length] at ey
      rw [List.length_map, g.item]
      exact ey
    · funext f
      unfold restrict
      by_cases h : f ∈ T.obs
      · simp [h, hy f h]
      · simp [h]

theorem setup_header {T : TraceFormat} (g : Good T) {vs : List (Fld → Int)} (hF : T.File vs) (hd : List Nat) (p : Params) :
    setup T.F (hd ++ encodeAll T.L vs) p = .ok (fresh T.F (hd ++ encodeAll T.L vs) p) := by
  unfold setup
  rw [if_neg]
  · rfl
  · rw [List.length_append, file_len g]
    have : vs.length ≠ 0 := fun h => hF.2 (List.length_eq_zero_iff.1 h)
    have hp := g.pos
    rw [← g.item] at hp
    have := Nat.mul_ne_zero this (show T.F.item ≠ 0 by omega)
    omega

/-- what is seen from record `k` on in a file with a header -/
theorem seen_header {T : TraceFormat} (g : Good T) {vs : List (Fld → Int)} (hF : T.File vs) (hd : List Nat) {k : Nat} (hk : k ≤ vs.length)
    {rd : Reader} (h1 : rd.fmt = T.F) (h2 : rd.bytes = hd ++ encodeAll T.L vs) (h3 : rd.start = hd.length)
    (h4 : rd.off = hd.length + k * T.F.item) (hash : Nat → Nat) (hfwd : rd.fwd = true) (hs : SOkO rd.sampler) :
    seen hash T.obs rd = .ok (((sampled hash (fun v => (v .id).toNat) rd.sampler
      (capped rd.cap rd.nRead (((vs.drop k).map T.mean).filter (fun v => !(rd.ignoreZero && T.zero v))))).map (shownSize rd.ignoreSize)).map
      (fun v => T.obs.map v)) := by
  have LL := g.laysHeader hF hd
  have hat : At T.F (hd ++ encodeAll T.L vs) hd.length (TRecs T vs) rd (TRecs T (vs.take k)) (TRecs T (vs.drop k)) := by
    refine ⟨h1, h2, h3, ?_, ?_⟩
    · unfold TRecs; rw [← List.map_append, List.take_append_drop]
    · rw [h4]; unfold TRecs; rw [List.length_map, List.length_take, Nat.min_eq_left hk]
  have rep : Rep T.F (hd ++ encodeAll T.L vs) hd.length (TRecs T vs) (TSk T) rd (live (TSk T) rd (TRecs T (vs.drop k))) := ⟨_, _, hat, rfl⟩
  obtain ⟨qs, rd', er, va, mm⟩ := readAll_spec LL hash (rd.bytes.length + 1) rd newRequest _ hfwd hs rep (rep_length LL rep)
  unfold seen
  rw [er]
  simp only [Res.bind_ok]
  congr 1
  have hl : live (TSk T) rd (TRecs T (vs.drop k)) =
      (capped rd.cap rd.nRead (((vs.drop k).map T.mean).filter (fun v => !(rd.ignoreZero && T.zero v)))).map (restrict T.obs) := by
    unfold live TSk TRecs
    simp only [hfwd, Bool.true_or, Bool.true_and]
    rw [← capped_map]
    congr 1
    rw [show (fun v => restrict T.obs (T.mean v)) = restrict T.obs ∘ T.mean from rfl, ← List.map_map, List.filter_map]
    congr 1
    apply List.filter_congr
    intro v _
    simp [g.zero]
  rw [hl, sampled_map] at mm
  have h1 : qs.map (fun q => T.obs.map q.vals) = (qs.map (fun q => restrict T.obs q.vals)).map (fun x => T.obs.map x) := by
    rw [List.map_map]
    apply List.map_congr_left
    intro q _; exact (restrict_obs T.obs q.vals).symm
  rw [h1, mm, List.map_map, List.map_map, List.map_map]
  have hidr : ∀ y : Vals, ((restrict T.obs y) .id).toNat = (y .id).toNat := by intro y; simp [restrict, g.id]
  simp only [hidr]
  apply List.map_congr_left
  intro y _
  simp only [Function.comp]
  unfold shown shownSize
  split
  · rw [← restrict_obs T.obs (Vals.set y .size 1)]
    congr 1
    funext f
    unfold restrict Vals.set
    by_cases h : f = .size
    · subst h; simp [g.sz]
    · simp [h]
  · exact restrict_obs T.obs y

end Verif.Reader
