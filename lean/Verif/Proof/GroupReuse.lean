import Verif.Spec.GroupReuse
/-!
# Proofs about the statistics of reuse
-/

namespace Verif.GroupReuse
open Verif Verif.Spec.Reuses

/-! ## The objects -/

theorem objects_snoc (rs : List Rec) (r : Rec) : objects (rs ++ [r]) = if r.id ∈ objects rs then objects rs else objects rs ++ [r.id] := by
  unfold objects; rw [List.foldl_append]; rfl

theorem mem_foldl (rs : List Rec) : ∀ (l : List Nat) (id : Nat), id ∈ rs.foldl (fun l r => if r.id ∈ l then l else l ++ [r.id]) l ↔ id ∈ l ∨ ∃ r ∈ rs, r.id = id := by
  induction rs with
  | nil => intro l id; simp
  | cons r rs ih =>
    intro l id
    rw [List.foldl_cons, ih]
    by_cases h : r.id ∈ l
    · rw [if_pos h]
      constructor
      · rintro (g | ⟨q, hq, e⟩)
        · exact .inl g
        · exact .inr ⟨q, List.mem_cons_of_mem _ hq, e⟩
      · rintro (g | ⟨q, hq, e⟩)
        · exact .inl g
        · rcases List.mem_cons.1 hq with rfl | hq
          · exact .inl (e ▸ h)
          · exact .inr ⟨q, hq, e⟩
    · rw [if_neg h, List.mem_append, List.mem_singleton]
      constructor
      · rintro ((g | g) | ⟨q, hq, e⟩)
        · exact .inl g
        · exact .inr ⟨r, List.mem_cons_self .., g.symm⟩
        · exact .inr ⟨q, List.mem_cons_of_mem _ hq, e⟩
      · rintro (g | ⟨q, hq, e⟩)
        · exact .inl (.inl g)
        · rcases List.mem_cons.1 hq with rfl | hq
          · exact .inl (.inr e.symm)
          · exact .inr ⟨q, hq, e⟩

theorem mem_objects (rs : List Rec) (id : Nat) : id ∈ objects rs ↔ ∃ r ∈ rs, r.id = id := by
  unfold objects; rw [mem_foldl]; simp

/-! ## Gaps -/

/-- the differences of neighbours -/
def gaps : List Nat → List Int
  | a :: b :: l => ((b : Int) - (a : Int)) :: gaps (b :: l)
  | _ => []

theorem gaps_length : ∀ l : List Nat, (gaps l).length = l.length - 1
  | [] => rfl
  | [_] => rfl
  | a :: b :: l => by
    unfold gaps
    rw [List.length_cons, gaps_length (b :: l)]
    simp

theorem gaps_snoc : ∀ (l : List Nat) (t : Nat), l ≠ [] → gaps (l ++ [t]) = gaps l ++ [(t : Int) - ((l.getLast?.getD 0 : Nat) : Int)]
  | [], _, h => absurd rfl h
  | [a], t, _ => by simp [gaps]
  | a :: b :: l, t, _ => by
    have := gaps_snoc (b :: l) t (by simp)
    show gaps (a :: b :: (l ++ [t])) = _
    unfold gaps
    rw [show b :: (l ++ [t]) = (b :: l) ++ [t] from rfl, this, List.getLast?_cons_cons]
    rfl

theorem gaps_sum : ∀ l : List Nat, (gaps l).sum = ((l.getLast?.getD 0 : Nat) : Int) - ((l.head?.getD 0 : Nat) : Int)
  | [] => by simp [gaps]
  | [a] => by simp [gaps]
  | a :: b :: l => by
    unfold gaps
    rw [List.sum_cons, gaps_sum (b :: l), List.getLast?_cons_cons]
    simp only [List.head?_cons, Option.getD_some]
    omega

theorem cast_sum (l : List Int) : (l.map fun g : Int => (g : Rat)).sum = ((l.sum : Int) : Rat) := by
  induction l with
  | nil => rfl
  | cons a l ih => rw [List.map_cons, List.sum_cons, ih, List.sum_cons, Rat.intCast_add]

/-! ## The scan -/

/-- the entry of an object -/
def val (rs : List Rec) (id : Nat) : Val := ⟨rs.findIdx (fun r => r.id = id) + 1, (((times rs id).getLast?.getD 0 : Nat) : Int), gaps (times rs id)⟩

/-- the map after some requests -/
def mapOf (rs : List Rec) : List (Nat × Val) := (objects rs).map fun id => (id, val rs id)

theorem find_map (l : List Nat) (f : Nat → Val) (id : Nat) : (l.map fun i => (i, f i)).find? (fun p => p.1 = id) = if id ∈ l then some (id, f id) else none := by
  induction l with
  | nil => rfl
  | cons a l ih =>
    rw [List.map_cons]
    by_cases h : a = id
    · subst h
      rw [List.find?_cons_of_pos (by simp), if_pos (by simp)]
    · rw [List.find?_cons_of_neg (by simpa using h), ih]
      have : id ∈ a :: l ↔ id ∈ l := by
        rw [List.mem_cons]
        exact ⟨fun g => g.elim (fun c => absurd c.symm h) (fun c => c), .inr⟩
      simp only [this]

theorem times_snoc (rs : List Rec) (r : Rec) (id : Nat) : times (rs ++ [r]) id = if r.id = id then times rs id ++ [r.time] else times rs id := by
  unfold times
  rw [List.filter_append]
  by_cases h : r.id = id <;> simp [h]

theorem findIdx_snoc (rs : List Rec) (r : Rec) (id : Nat) (h : id ∈ objects rs) : (rs ++ [r]).findIdx (fun r => r.id = id) = rs.findIdx (fun r => r.id = id) := by
  rw [List.findIdx_append, if_pos]
  obtain ⟨q, hq, e⟩ := (mem_objects rs id).1 h
  exact List.findIdx_lt_length_of_exists ⟨q, hq, by simpa using e⟩

theorem times_ne (rs : List Rec) (id : Nat) (h : id ∈ objects rs) : times rs id ≠ [] := by
  obtain ⟨q, hq, e⟩ := (mem_objects rs id).1 h
  unfold times
  intro c
  have : q ∈ rs.filter fun r => r.id = id := List.mem_filter.2 ⟨hq, by simpa using e⟩
  rw [List.map_eq_nil_iff] at c
  rw [c] at this
  cases this

theorem times_nil (rs : List Rec) (id : Nat) (h : id ∉ objects rs) : times rs id = [] := by
  unfold times
  rw [List.map_eq_nil_iff, List.filter_eq_nil_iff]
  intro q hq
  simp only [decide_eq_true_eq]
  exact fun e => h ((mem_objects rs id).2 ⟨q, hq, e⟩)

theorem i32_ok {t : Nat} (h : t < 2147483648) : i32 t = (t : Int) := by unfold i32; omega

theorem getLast_le {rs : List Rec} {r : Rec} {id : Nat} (h : ∀ q ∈ rs, q.time ≤ r.time) : (times rs id).getLast?.getD 0 ≤ r.time := by
  cases hl : (times rs id).getLast? with
  | none => exact Nat.zero_le _
  | some t =>
    have := List.mem_of_getLast? hl
    unfold times at this
    obtain ⟨q, hq, rfl⟩ := List.mem_map.1 this
    exact h q (List.mem_filter.1 hq).1

theorem step_ok {seen : List Rec} {r : Rec} (hr : r.time < 2147483648) (hle : ∀ q ∈ seen, q.time ≤ r.time) : step (seen.length, mapOf seen) r = .ok ((seen ++ [r]).length, mapOf (seen ++ [r])) := by
  unfold step
  have hlen : (seen ++ [r]).length = seen.length + 1 := by simp
  show (match (mapOf seen).find? (fun p => p.1 = r.id) with | none => _ | some p => _) = _
  unfold mapOf
  rw [find_map]
  by_cases h : r.id ∈ objects seen
  · rw [if_pos h]
    show (if (r.time : Int) - (val seen r.id).last ≥ 0 then _ else _) = _
    have hl := getLast_le (id := r.id) hle
    rw [if_pos (by show (r.time : Int) - (((times seen r.id).getLast?.getD 0 : Nat) : Int) ≥ 0; omega), hlen, objects_snoc, if_pos h, List.map_map]
    congr 2
    apply List.map_congr_left
    intro id hid
    show (if id = r.id then _ else _) = _
    by_cases c : id = r.id
    · subst c
      rw [if_pos rfl]
      unfold val
      rw [findIdx_snoc seen r r.id h, times_snoc, if_pos rfl, gaps_snoc _ _ (times_ne seen r.id h), i32_ok hr]
      simp
    · rw [if_neg c]
      unfold val
      rw [findIdx_snoc seen r id hid, times_snoc, if_neg (fun e => c e.symm)]
  · rw [if_neg h]
    show Except.ok (seen.length + 1, _) = _
    rw [hlen, objects_snoc, if_neg h, List.map_append]
    congr 2
    congr 1
    · apply List.map_congr_left
      intro id hid
      have c : r.id ≠ id := fun e => h (e ▸ hid)
      unfold val
      rw [findIdx_snoc seen r id hid, times_snoc, if_neg c]
    · show [(r.id, Val.mk (seen.length + 1) (i32 r.time) [])] = [(r.id, val (seen ++ [r]) r.id)]
      unfold val
      rw [times_snoc, if_pos rfl, times_nil seen r.id h, i32_ok hr]
      have hf : (seen ++ [r]).findIdx (fun q => q.id = r.id) = seen.length := by
        have hn : seen.findIdx (fun q => q.id = r.id) = seen.length := by
          rw [List.findIdx_eq_length]
          intro q hq
          simp only [decide_eq_false_iff_not]
          exact fun e => h ((mem_objects seen r.id).2 ⟨q, hq, e⟩)
        rw [List.findIdx_append, hn, if_neg (Nat.lt_irrefl _)]
        simp
      rw [hf]
      rfl

theorem scan_ok : ∀ (rs seen : List Rec), Clock (seen ++ rs) → scan (seen.length, mapOf seen) rs = .ok ((seen ++ rs).length, mapOf (seen ++ rs))
  | [], seen, _ => by simp [scan]
  | r :: rs, seen, h => by
    have hp := List.pairwise_append.1 h.1
    unfold scan
    rw [step_ok (h.2 r (by simp)) (fun q hq => hp.2.2 q hq r (List.mem_cons_self ..))]
    have e : (seen ++ [r]) ++ rs = seen ++ r :: rs := by simp
    have := scan_ok rs (seen ++ [r]) (by rw [e]; exact h)
    rw [e] at this
    exact this

theorem stat_val (rs : List Rec) (id : Nat) : stat (val rs id) = reuse rs id := by
  unfold stat val reuse mean
  simp only [gaps_length, cast_sum, gaps_sum, List.length_map, List.map_eq_nil_iff]
  congr 1
  have hl := gaps_length (times rs id)
  by_cases h : (times rs id).length ≤ 1
  · rw [if_pos h, if_pos]
    exact List.eq_nil_of_length_eq_zero (by omega)
  · rw [if_neg h, if_neg]
    intro c
    rw [c] at hl
    simp at hl
    omega

/-! ## Sorting -/

theorem first_lt (rs : List Rec) : (objects rs).Pairwise fun a b => rs.findIdx (fun r => r.id = a) < rs.findIdx (fun r => r.id = b) := by
  have H : ∀ n, ∀ rs : List Rec, rs.length = n → (objects rs).Pairwise fun a b => rs.findIdx (fun r => r.id = a) < rs.findIdx (fun r => r.id = b) := by
    intro n
    induction n with
    | zero => intro rs h; rw [List.length_eq_zero_iff] at h; subst h; exact List.Pairwise.nil
    | succ n ih =>
      intro rs h
      obtain ⟨seen, r, rfl⟩ : ∃ seen r, rs = seen ++ [r] := ⟨rs.dropLast, rs.getLast (by intro c; rw [c] at h; cases h), (List.dropLast_concat_getLast _).symm⟩
      have hs := ih seen (by simpa using h)
      have hs' : (objects seen).Pairwise fun a b => (seen ++ [r]).findIdx (fun r => r.id = a) < (seen ++ [r]).findIdx (fun r => r.id = b) := by
        refine List.Pairwise.imp_of_mem ?_ hs
        intro a b ha hb hab
        rw [findIdx_snoc _ _ _ ha, findIdx_snoc _ _ _ hb]
        exact hab
      rw [objects_snoc]
      by_cases c : r.id ∈ objects seen
      · rw [if_pos c]; exact hs'
      · rw [if_neg c, List.pairwise_append]
        refine ⟨hs', List.pairwise_singleton _ _, ?_⟩
        intro a ha b hb
        rw [List.mem_singleton] at hb
        subst hb
        have hn : seen.findIdx (fun q => q.id = r.id) = seen.length := by
          rw [List.findIdx_eq_length]
          intro q hq
          simp only [decide_eq_false_iff_not]
          exact fun e => c ((mem_objects seen r.id).2 ⟨q, hq, e⟩)
        rw [findIdx_snoc _ _ _ ha, List.findIdx_append, hn, if_neg (Nat.lt_irrefl _)]
        obtain ⟨q, hq, e⟩ := (mem_objects seen a).1 ha
        have : seen.findIdx (fun r => r.id = a) < seen.length := List.findIdx_lt_length_of_exists ⟨q, hq, by simpa using e⟩
        omega
  exact H _ rs rfl

theorem sorted_ok (rs : List Rec) (walk : List (Nat × Val)) (hw : walk.Perm (mapOf rs)) : sorted walk = (objects rs).map (reuse rs) := by
  have hspec : ((objects rs).map (reuse rs)).Pairwise fun a b => a.first < b.first := by
    rw [List.pairwise_map]
    refine (first_lt rs).imp ?_
    intro a b hab
    show _ + 1 < _ + 1
    omega
  have hperm : (sorted walk).Perm ((objects rs).map (reuse rs)) := by
    unfold sorted
    refine (List.mergeSort_perm _ _).trans ?_
    refine (hw.map _).trans ?_
    unfold mapOf
    rw [List.map_map]
    refine List.Perm.of_eq (List.map_congr_left ?_)
    intro id _
    exact stat_val rs id
  have hsort : (sorted walk).Pairwise fun a b => a.first ≤ b.first := by
    unfold sorted
    refine (List.pairwise_mergeSort ?_ ?_ _).imp ?_
    · intro a b c h1 h2
      simp only [decide_eq_true_eq] at *
      omega
    · intro a b
      simp only [Bool.or_eq_true, decide_eq_true_eq]
      omega
    · intro a b h
      simpa using h
  refine List.Perm.eq_of_pairwise (le := fun a b : Stat => a.first ≤ b.first) ?_ hsort (hspec.imp (fun h => Nat.le_of_lt h)) hperm
  intro a b ha hb h1 h2
  have ha' := hperm.mem_iff.1 ha
  have hfe : a.first = b.first := Nat.le_antisymm h1 h2
  obtain ⟨i, hi, ei⟩ := List.mem_iff_getElem.1 ha'
  obtain ⟨j, hj, ej⟩ := List.mem_iff_getElem.1 hb
  rw [List.pairwise_iff_getElem] at hspec
  rcases Nat.lt_trichotomy i j with c | c | c
  · have := hspec i j hi hj c
    rw [ei, ej] at this
    omega
  · subst c
    exact ei.symm.trans ej
  · have := hspec j i hj hi c
    rw [ei, ej] at this
    omega

/-! ## Groups -/

theorem groups_ok (v : List Rat) (g stop : Nat) (hg : 0 < g) : ∀ (fuel pos : Nat), stop ≤ pos + fuel * g → 0 < fuel →
    groups v g stop fuel pos = .ok ((List.range ((stop - pos - 1) / g)).map fun i => mean ((v.drop (pos + i * g)).take g))
  | 0, _, _, h => absurd h (Nat.lt_irrefl _)
  | fuel + 1, pos, h, _ => by
    unfold groups
    by_cases c : pos + g < stop
    · rw [if_pos c]
      have hk : (stop - pos - 1) / g = (stop - (pos + g) - 1) / g + 1 := by
        rw [show stop - pos - 1 = (stop - (pos + g) - 1) + g by omega, Nat.add_div_right _ hg]
      have hf : 0 < fuel := by
        rcases Nat.eq_zero_or_pos fuel with rfl | hf
        · simp only [Nat.zero_add, Nat.one_mul] at h
          omega
        · exact hf
      rw [groups_ok v g stop hg fuel (pos + g) (by rw [Nat.add_mul, Nat.one_mul] at h; omega) hf, hk, List.range_succ_eq_map]
      simp only [List.map_cons, List.map_map, Nat.zero_mul, Nat.add_zero]
      show Except.ok (_ :: _) = _
      congr 2
      apply List.map_congr_left
      intro i _
      simp only [Function.comp_apply, Nat.succ_eq_add_one, Nat.add_mul, Nat.one_mul]
      congr 3
      omega
    · rw [if_neg c, Nat.div_eq_of_lt (by omega)]
      rfl

end Verif.GroupReuse
