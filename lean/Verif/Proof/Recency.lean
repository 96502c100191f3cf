import Verif.Spec.Recency
import Verif.Spec.Textbook
import Mathlib.Data.List.Induction
/-!
# LRU on equally sized objects is the prefix of the recency order
-/

namespace Verif
open Spec

theorem dedup_concat (tr : List ObjId) (x : ObjId) :
    (tr ++ [x]).dedup = tr.dedup.filter (fun y => y ≠ x) ++ [x] := by
  induction tr with
  | nil => simp
  | cons a tr ih =>
    rw [List.cons_append]
    by_cases h : a ∈ tr ++ [x]
    · rw [List.dedup_cons_of_mem h, ih]
      by_cases h2 : a ∈ tr
      · rw [List.dedup_cons_of_mem h2]
      · rw [List.dedup_cons_of_notMem h2]
        have : a = x := by simpa [h2] using h
        rw [List.filter_cons_of_neg (by simp [this])]
    · rw [List.dedup_cons_of_notMem h, ih]
      have h2 : a ∉ tr := fun e => h (by simp [e])
      have h3 : a ≠ x := fun e => h (by simp [e])
      rw [List.dedup_cons_of_notMem h2, List.filter_cons_of_pos (by simp [h3])]
      rfl

theorem mostRecent_nodup (tr : List ObjId) : (mostRecent tr).Nodup := by
  unfold mostRecent; rw [List.nodup_reverse]; exact tr.nodup_dedup

theorem mem_mostRecent {tr : List ObjId} {x : ObjId} : x ∈ mostRecent tr ↔ x ∈ tr := by simp [mostRecent]

theorem mostRecent_concat (tr : List ObjId) (x : ObjId) :
    mostRecent (tr ++ [x]) = x :: (mostRecent tr).filter (fun y => y ≠ x) := by
  unfold mostRecent
  rw [dedup_concat, List.reverse_append, List.filter_reverse]
  rfl

/-- The stack distance is the position in the recency order. -/
theorem sinceLast_concat_ne {tr : List ObjId} {x y : ObjId} (h : y ≠ x) :
    sinceLast x (tr ++ [y]) = sinceLast x tr ++ [y] := by
  simp [sinceLast, h]

theorem sinceLast_concat_self {tr : List ObjId} {x : ObjId} : sinceLast x (tr ++ [x]) = [] := by
  simp [sinceLast]

theorem mem_sinceLast_ne {tr : List ObjId} {x y : ObjId} (h : y ∈ sinceLast x tr) : y ≠ x := by
  unfold sinceLast at h
  rw [List.mem_reverse] at h
  have := (List.all_takeWhile (l := tr.reverse) (p := fun y => decide (y ≠ x)))
  rw [List.all_eq_true] at this
  simpa using this y h

theorem mostRecent_split {tr : List ObjId} {x : ObjId} (h : x ∈ tr) :
    ∃ rest, mostRecent tr = mostRecent (sinceLast x tr) ++ x :: rest := by
  induction tr using List.reverseRecOn with
  | nil => simp at h
  | append_singleton tr y ih =>
    by_cases hy : y = x
    · subst hy
      rw [sinceLast_concat_self, mostRecent_concat]
      exact ⟨_, rfl⟩
    · have hx : x ∈ tr := by simp [Ne.symm hy] at h; exact h
      obtain ⟨rest, hr⟩ := ih hx
      rw [sinceLast_concat_ne hy, mostRecent_concat, mostRecent_concat, hr, List.filter_append]
      refine ⟨rest.filter (fun z => z ≠ y), ?_⟩
      rw [List.filter_cons_of_pos (by simpa using Ne.symm hy)]
      rfl

theorem mem_take_mostRecent {tr : List ObjId} {x : ObjId} {k : Nat} :
    x ∈ (mostRecent tr).take k ↔ ∃ d, stackDistance tr x = some d ∧ d < k := by
  unfold stackDistance
  by_cases hx : x ∈ tr
  · obtain ⟨rest, hr⟩ := mostRecent_split hx
    have hnd := mostRecent_nodup tr
    rw [hr] at hnd
    have hnot : x ∉ mostRecent (sinceLast x tr) := by
      rw [List.nodup_append] at hnd
      exact fun e => hnd.2.2 x e x (by simp) rfl
    have hlen : (mostRecent (sinceLast x tr)).length = (sinceLast x tr).dedup.length := by simp [mostRecent]
    simp only [hx, if_true, Option.some.injEq, exists_eq_left']
    rw [hr, List.take_append, ← hlen]
    constructor
    · intro h
      rcases List.mem_append.1 h with h | h
      · exact absurd (List.mem_of_mem_take h) hnot
      · by_contra hk
        have : k - (mostRecent (sinceLast x tr)).length = 0 := by omega
        rw [this] at h; simp at h
    · intro h
      apply List.mem_append_right
      obtain ⟨m, hm⟩ : ∃ m, k - (mostRecent (sinceLast x tr)).length = m + 1 := ⟨_, (Nat.sub_add_cancel (by omega)).symm⟩
      rw [hm]; simp
  · have : x ∉ (mostRecent tr).take k := fun h => hx (mem_mostRecent.1 (List.mem_of_mem_take h))
    simp [hx, this]

/-! ## The textbook LRU on objects of one size -/

theorem filter_take_notMem {l : List ObjId} {x : ObjId} {k : Nat} (h : x ∉ l.take k) :
    (l.filter (fun y => y ≠ x)).take k = l.take k := by
  induction l generalizing k with
  | nil => rfl
  | cons a l ih =>
    cases k with
    | zero => simp
    | succ k =>
      simp only [List.take_succ_cons, List.mem_cons, not_or] at h
      rw [List.filter_cons_of_pos (by simpa using Ne.symm h.1)]
      simp only [List.take_succ_cons]
      rw [ih h.2]

theorem filter_take_mem {l : List ObjId} {x : ObjId} {k : Nat} (hn : l.Nodup) (h : x ∈ l.take (k + 1)) :
    (l.filter (fun y => y ≠ x)).take k = (l.take (k + 1)).filter (fun y => y ≠ x) := by
  induction l generalizing k with
  | nil => simp
  | cons a l ih =>
    have hal := (List.nodup_cons.1 hn).1
    by_cases ha : a = x
    · subst ha
      have : ∀ m : List ObjId, (∀ y ∈ m, y ∈ l) → m.filter (fun y => y ≠ a) = m := by
        intro m hm
        rw [List.filter_eq_self]
        intro y hy
        have := hm y hy
        simp only [decide_eq_true_eq]
        rintro rfl
        exact hal this
      rw [List.filter_cons_of_neg (by simp), List.take_succ_cons, List.filter_cons_of_neg (by simp)]
      rw [this l (fun _ h => h), this _ (fun y hy => List.mem_of_mem_take hy)]
    · simp only [List.take_succ_cons, List.mem_cons] at h
      have h' : x ∈ l.take k := by simpa [Ne.symm ha] using h
      rw [List.filter_cons_of_pos (by simpa using ha), List.take_succ_cons,
        List.filter_cons_of_pos (by simpa using ha)]
      cases k with
      | zero => simp at h'
      | succ k => rw [List.take_succ_cons, ih (List.nodup_cons.1 hn).2 h']

theorem bytes_uniform {md z : Nat} {l : List ObjId} : bytes md (l.map (fun id => (id, z))) = l.length * (z + md) := by
  induction l with
  | nil => simp [bytes]
  | cons a l ih =>
    simp only [bytes, List.map_cons, List.sum_cons, List.length_cons] at ih ⊢
    rw [ih, Nat.succ_mul]; omega

theorem makeRoom_uniform {C md z : Nat} (hu : 0 < z + md) (hfit : z + md ≤ C) :
    ∀ n (l : List ObjId), l.length ≤ n →
      makeRoom lru C md (z + md) n (l.map (fun id => (id, z))) =
        (l.take (C / (z + md) - 1)).map (fun id => (id, z)) := by
  have hk : 1 ≤ C / (z + md) := (Nat.one_le_div_iff hu).2 hfit
  intro n
  induction n with
  | zero =>
    intro l hl
    have : l = [] := List.length_eq_zero_iff.1 (by omega)
    subst this; simp [makeRoom]
  | succ n ih =>
    intro l hl
    rw [makeRoom]
    have hb : bytes md (lru.contents (l.map (fun id => (id, z)))) = l.length * (z + md) := bytes_uniform
    rw [hb]
    have key : l.length * (z + md) + (z + md) ≤ C ↔ l.length + 1 ≤ C / (z + md) := by
      rw [Nat.le_div_iff_mul_le hu, Nat.add_mul, Nat.one_mul]
    by_cases h : l.length * (z + md) + (z + md) ≤ C
    · rw [if_pos h]
      have := key.1 h
      rw [List.take_of_length_le (by omega)]
    · rw [if_neg h]
      have hlt : C / (z + md) < l.length + 1 := by
        have := mt key.2 h; omega
      have e : lru.evict (l.map (fun id => (id, z))) = (l.dropLast).map (fun id => (id, z)) := by
        show List.dropLast _ = _
        rw [List.map_dropLast]
      rw [e, ih l.dropLast (by rw [List.length_dropLast]; omega)]
      congr 1
      rw [List.dropLast_eq_take, List.take_take]
      congr 1; omega

/-- One get of the textbook LRU on equally sized objects. -/
theorem tget_uniform {C md : Nat} {z k : Nat} (hu : 0 < z + md) (hz : z < u32) (hk : k = C / (z + md))
    (tr : List ObjId) (r : Req) (hr : r.size = z) :
    tget lru C md ⟨((mostRecent tr).take k).map (fun id => (id, z)), .none⟩ r =
      (decide (r.id ∈ (mostRecent tr).take k),
        ⟨((mostRecent (tr ++ [r.id])).take k).map (fun id => (id, z)), .none⟩) := by
  have hids : ∀ l : List ObjId, Contents.ids (l.map (fun id => (id, z))) = l := by
    intro l
    simp only [Contents.ids, List.map_map]
    exact List.map_id _
  have hh : holds lru ⟨((mostRecent tr).take k).map (fun id => (id, z)), .none⟩ r.id =
      decide (r.id ∈ (mostRecent tr).take k) := by
    unfold holds
    show decide (r.id ∈ Contents.ids (((mostRecent tr).take k).map (fun id => (id, z)))) = _
    rw [hids]
  unfold tget
  rw [hh]
  by_cases hin : r.id ∈ (mostRecent tr).take k
  · simp only [hin, decide_true, if_true]
    rw [mostRecent_concat]
    obtain ⟨k', hk'⟩ : ∃ k', k = k' + 1 := by
      cases k with
      | zero => simp at hin
      | succ k' => exact ⟨k', rfl⟩
    rw [hk'] at hin ⊢
    rw [List.take_succ_cons, filter_take_mem (mostRecent_nodup tr) hin]
    have hnd : ((mostRecent tr).take (k' + 1)).Nodup := (mostRecent_nodup tr).sublist (List.take_sublist _ _)
    generalize (mostRecent tr).take (k' + 1) = l at hin hnd
    show (true, TState.mk (toFront (l.map _) r.id) .none) = _
    unfold toFront
    rw [List.filter_map, List.filter_map]
    have e1 : l.filter ((fun x => decide (x.1 = r.id)) ∘ fun id => (id, z)) = [r.id] := by
      have h2 := List.filter_beq r.id (l := l)
      rw [List.count_eq_one_of_mem hnd hin] at h2
      rw [show [r.id] = List.replicate 1 r.id from rfl, ← h2]
      apply List.filter_congr; intro x _; simp [BEq.beq]
    rw [e1]
    rfl
  · simp only [hin, decide_false, Bool.false_eq_true, if_false]
    simp only [Adm.admit, true_and]
    by_cases hfit : r.size + md ≤ C
    · rw [if_pos hfit]
      have hfit' : z + md ≤ C := hr ▸ hfit
      have hk1 : 1 ≤ k := by rw [hk]; exact (Nat.one_le_div_iff hu).2 hfit'
      have hlen : (lru.contents (((mostRecent tr).take k).map (fun id => (id, z)))).length = ((mostRecent tr).take k).length := by
        show List.length (((mostRecent tr).take k).map _) = _
        simp
      rw [hr, hlen, makeRoom_uniform hu hfit' _ _ (Nat.le_refl _), ← hk, mostRecent_concat]
      obtain ⟨k', hk'⟩ : ∃ k', k = k' + 1 := ⟨k - 1, by omega⟩
      subst hk'
      have hn' : r.id ∉ (mostRecent tr).take k' := by
        intro h; exact hin ((List.take_subset_take_left _ (by omega)) h)
      rw [List.take_succ_cons, filter_take_notMem hn', Nat.add_sub_cancel, List.take_take, Nat.min_eq_left (by omega)]
      simp only [List.map_cons]
      show (false, TState.mk ((r.id, r.size % u32) :: _) Adm.none) = _
      rw [hr, Nat.mod_eq_of_lt hz]
    · rw [if_neg hfit]
      have hk0 : k = 0 := by
        rw [hk, Nat.div_eq_zero_iff]; right; omega
      rw [hk0]; simp

theorem decide_take_mostRecent (tr : List ObjId) (x : ObjId) (k : Nat) :
    decide (x ∈ (mostRecent tr).take k) = within k (stackDistance tr x) := by
  have h := mem_take_mostRecent (tr := tr) (x := x) (k := k)
  generalize stackDistance tr x = d at h
  cases d with
  | none => simpa [within] using h
  | some d => simpa [within] using h

/-- The textbook LRU on a trace of equally sized objects. -/
theorem trun_uniform {C md z : Nat} (hu : 0 < z + md) (hz : z < u32) (rs : List Req) (hrs : ∀ r ∈ rs, r.size = z)
    (pre : List ObjId) :
    trun lru C md ⟨((mostRecent pre).take (C / (z + md))).map (fun id => (id, z)), .none⟩ (rs.map .get) =
      (hitsByDistance (C / (z + md)) pre (rs.map (·.id)),
        ⟨((mostRecent (pre ++ rs.map (·.id))).take (C / (z + md))).map (fun id => (id, z)), .none⟩) := by
  induction rs generalizing pre with
  | nil => simp [trun, hitsByDistance]
  | cons r rs ih =>
    simp only [List.map_cons, trun, tstep]
    rw [tget_uniform hu hz rfl pre r (hrs r (by simp))]
    simp only
    rw [ih (fun r h => hrs r (by simp [h]))]
    simp only [hitsByDistance, decide_take_mostRecent, List.append_assoc, List.singleton_append]

theorem hitsByDistance_mono {k k' : Nat} (h : k ≤ k') (tr : List ObjId) (pre : List ObjId) :
    (hitsByDistance k' pre tr).count false ≤ (hitsByDistance k pre tr).count false := by
  induction tr generalizing pre with
  | nil => simp [hitsByDistance]
  | cons x tr ih =>
    simp only [hitsByDistance, List.count_cons]
    have := ih (pre ++ [x])
    cases stackDistance pre x with
    | none => simp [within]; exact this
    | some d =>
      by_cases h1 : d < k
      · have h2 : d < k' := by omega
        simp [within, h1, h2]; exact this
      · by_cases h2 : d < k'
        · simp [within, h1, h2]; omega
        · simp [within, h1, h2]; exact this

end Verif
