import Verif.Tools.WriteAmp
import Verif.Spec.WriteAmp
import Verif.Spec.OneHit
import Verif.Proof.Earned
import Mathlib.Data.List.Induction
/-!
# Flash write amplification: helper lemmas
-/

namespace Verif.WriteAmp
open Verif Verif.Spec

variable {σ : Type} {A : Algo σ}

theorem volume_snoc (p : List Req) (x : Req) : volume (p ++ [x]) = volume p + x.size := by simp [volume]

theorem volume_append (p q : List Req) : volume (p ++ q) = volume p + volume q := by simp [volume]

theorem firstReqs_snoc (p : List Req) (x : Req) : firstReqs (p ++ [x]) = firstReqs p ++ if x.id ∈ p.map Req.id then [] else [x] := by
  unfold firstReqs
  rw [List.length_append, List.length_singleton, List.range_succ, List.filterMap_append]
  congr 1
  · refine List.filterMap_congr fun k hk => ?_
    have hk' : k < p.length := List.mem_range.1 hk
    rw [List.getElem?_append_left hk', List.take_append_of_le_length (by omega)]
  · by_cases h : x.id ∈ p.map Req.id
    · rw [if_pos h]
      simp only [List.filterMap_cons, List.filterMap_nil, List.getElem?_concat_length, List.take_left]
      rw [Option.filter_some, if_neg (by simpa using h)]
    · rw [if_neg h]
      simp only [List.filterMap_cons, List.filterMap_nil, List.getElem?_concat_length, List.take_left]
      rw [Option.filter_some, if_pos (by simpa using h)]

theorem missed_snoc (p : List Req) (h : List Bool) (hl : p.length = h.length) (x : Req) (b : Bool) : missed (p ++ [x]) (h ++ [b]) = missed p h ++ if b = false then [x] else [] := by
  unfold missed
  rw [List.zip_append hl, List.filter_append, List.map_append]
  congr 1
  cases b <;> simp

/-- What the counters hold after the requests `p` with the outcomes `h`. -/
structure Inv (p : List Req) (h : List Bool) (seen : List Nat) (c : Count) : Prop where
  len : p.length = h.length
  seen : ∀ x, x ∈ seen ↔ x ∈ p.map Req.id
  req : c.nReq = p.length
  byte : c.nByte = volume p
  uniq : c.nUniq = (firstReqs p).length
  uniqByte : c.nUniqByte = volume (firstReqs p)
  miss : c.nMiss = (missed p h).length
  missByte : c.nMissByte = volume (missed p h)

theorem inv_zero : Inv [] [] [] zero := ⟨rfl, by simp, rfl, rfl, rfl, rfl, rfl, rfl⟩

theorem inv_step {p h seen c} (i : Inv p h seen c) (r : Req) (b : Bool) : Inv (p ++ [r]) (h ++ [b]) (seenStep seen c r).1 (missStep (seenStep seen c r).2 r b) := by
  have hs := i.seen r.id
  have e1 := missed_snoc p h i.len r b
  have e2 := firstReqs_snoc p r
  refine ⟨by simp [i.len], fun x => ?_, ?_, ?_, ?_, ?_, ?_, ?_⟩
  · unfold seenStep
    by_cases hm : r.id ∈ seen
    · simp only [if_pos hm, List.map_append, List.mem_append, List.map_cons, List.map_nil, List.mem_singleton, i.seen x]
      exact ⟨Or.inl, fun hx => hx.elim id fun e => e ▸ hs.1 hm⟩
    · simp only [if_neg hm, List.map_append, List.mem_append, List.map_cons, List.map_nil, List.mem_cons, i.seen x]
      simp [or_comm]
  all_goals
    unfold missStep seenStep
    by_cases hm : r.id ∈ seen
    · have hm' := hs.1 hm
      rw [if_pos hm'] at e2
      cases b <;> simp [hm, e1, e2, volume_snoc, volume_append, i.req, i.byte, i.uniq, i.uniqByte, i.miss, i.missByte, volume]
    · have hm' := fun k => hm (hs.2 k)
      rw [if_neg hm'] at e2
      cases b <;> simp [hm, e1, e2, volume_snoc, volume_append, i.req, i.byte, i.uniq, i.uniqByte, i.miss, i.missByte, volume]

theorem inv_loop : ∀ (rs : List Req) (s : σ) (hits : List Bool) (s' : σ) (p h seen c), Inv p h seen c → A.gets s rs = .ok (hits, s') →
    ∃ seen' c', loop A s seen c rs = .ok (c', s') ∧ Inv (p ++ rs) (h ++ hits) seen' c'
  | [], s, hits, s', p, h, seen, c, i, hg => by
    simp only [Algo.gets, Except.ok.injEq, Prod.mk.injEq] at hg
    obtain ⟨rfl, rfl⟩ := hg
    exact ⟨seen, c, rfl, by simpa using i⟩
  | r :: rs, s, hits, s', p, h, seen, c, i, hg => by
    simp only [Algo.gets] at hg
    obtain ⟨⟨b, s1⟩, h1, hg⟩ := Res.bind_eq_ok.1 hg
    obtain ⟨⟨bs, s2⟩, h2, hg⟩ := Res.bind_eq_ok.1 hg
    simp only [Except.ok.injEq, Prod.mk.injEq] at hg
    obtain ⟨rfl, rfl⟩ := hg
    obtain ⟨seen', c', k1, k2⟩ := inv_loop rs s1 bs s2 _ _ _ _ (inv_step i r b) h2
    refine ⟨seen', c', ?_, by simpa using k2⟩
    rw [loop, h1, Res.bind_ok]
    exact k1

theorem loop_gets : ∀ (rs : List Req) (s : σ) (seen c x), loop A s seen c rs = .ok x → ∃ hits, A.gets s rs = .ok (hits, x.2)
  | [], s, seen, c, x, h => by
    simp only [loop, Except.ok.injEq] at h
    exact ⟨[], by rw [← h]; rfl⟩
  | r :: rs, s, seen, c, x, h => by
    rw [loop] at h
    obtain ⟨⟨b, s1⟩, h1, h⟩ := Res.bind_eq_ok.1 h
    obtain ⟨hits, h2⟩ := loop_gets rs s1 _ _ x h
    exact ⟨b :: hits, by simp only [Algo.gets, h1, Res.bind_ok, h2]⟩

theorem firstReqs_missed : ∀ (p : List Req) (h : List Bool), p.length = h.length → (∀ pre r post, p = pre ++ r :: post → r.id ∉ pre.map Req.id → h[pre.length]? = some false) →
    (firstReqs p).Sublist (missed p h) := by
  intro p
  induction p using List.reverseRecOn with
  | nil => intro h _ _; exact List.nil_sublist _
  | append_singleton p x ih =>
    intro h hl hf
    obtain ⟨h, b, rfl⟩ : ∃ h' b, h = h' ++ [b] := by
      have hne : h ≠ [] := by rintro rfl; simp at hl
      exact ⟨h.dropLast, h.getLast hne, (List.dropLast_append_getLast hne).symm⟩
    have hl' : p.length = h.length := by simpa using hl
    rw [firstReqs_snoc, missed_snoc p h hl']
    refine List.Sublist.append (ih h hl' fun pre r post e hn => ?_) ?_
    · have := hf pre r (post ++ [x]) (by rw [e]; simp) hn
      rwa [List.getElem?_append_left (by rw [← hl', e]; simp)] at this
    · by_cases hx : x.id ∈ p.map Req.id
      · rw [if_pos hx]; exact List.nil_sublist _
      · have := hf p x [] rfl hx
        rw [hl', List.getElem?_concat_length, Option.some_inj] at this
        rw [if_neg hx, if_pos this]

theorem volume_sub {p q : List Req} (h : p.Sublist q) : volume p ≤ volume q := by
  induction h with
  | slnil => exact Nat.le_refl _
  | cons a _ ih => simp only [volume, List.map_cons, List.sum_cons] at ih ⊢; omega
  | cons_cons a _ ih => simp only [volume, List.map_cons, List.sum_cons] at ih ⊢; omega

theorem firstReqs_distinct (p : List Req) : (firstReqs p).length = distinct (p.map Req.id) := by
  induction p using List.reverseRecOn with
  | nil => rfl
  | append_singleton p x ih =>
    rw [firstReqs_snoc, List.length_append, ih, List.map_append]
    unfold distinct
    have e : (p.map Req.id ++ [x].map Req.id).toFinset = insert x.id (p.map Req.id).toFinset := by ext y; simp
    rw [e]
    by_cases hx : x.id ∈ p.map Req.id
    · rw [if_pos hx, Finset.insert_eq_of_mem (List.mem_toFinset.2 hx)]; rfl
    · rw [if_neg hx, Finset.card_insert_of_notMem (fun k => hx (List.mem_toFinset.1 k))]; rfl

theorem firstReqs_bytes (sz : Nat → Nat) (p : List Req) (h : ∀ r ∈ p, r.size = sz r.id) : volume (firstReqs p) = ∑ x ∈ (p.map Req.id).toFinset, sz x := by
  induction p using List.reverseRecOn with
  | nil => rfl
  | append_singleton p x ih =>
    rw [firstReqs_snoc, volume_append, ih fun r hr => h r (by simp [hr]), List.map_append]
    have e : (p.map Req.id ++ [x].map Req.id).toFinset = insert x.id (p.map Req.id).toFinset := by ext y; simp
    rw [e]
    by_cases hx : x.id ∈ p.map Req.id
    · rw [if_pos hx, Finset.insert_eq_of_mem (List.mem_toFinset.2 hx)]; rfl
    · rw [if_neg hx, Finset.sum_insert (fun k => hx (List.mem_toFinset.1 k))]
      have : volume [x] = sz x.id := by simp [volume, h x (by simp)]
      omega

end Verif.WriteAmp
