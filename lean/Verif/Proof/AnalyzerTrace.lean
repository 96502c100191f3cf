import Verif.Proof.AnalyzerLife

/-!
# The annotated requests of a trace
-/

namespace Verif.Analyzer
open Spec.TraceStats

theorem sublist_sum_le {a b : List Nat} (h : a.Sublist b) : a.sum ≤ b.sum := by
  induction h with
  | slnil => exact Nat.le_refl _
  | cons x _ ih => rw [List.sum_cons]; omega
  | cons_cons x _ ih => rw [List.sum_cons, List.sum_cons]; omega

theorem eraseDups_filter (p : Nat → Bool) (l : List Nat) : (l.filter p).eraseDups = l.eraseDups.filter p := by
  induction l using List.reverseRecOn with
  | nil => rfl
  | append_singleton l a ih =>
    rw [List.filter_append, List.eraseDups_append, List.eraseDups_append, List.filter_append, ih]
    congr 1
    simp only [List.filter_cons, List.filter_nil]
    by_cases hp : p a
    · simp only [hp, if_true, List.removeAll, List.filter_cons, List.filter_nil]
      by_cases hm : a ∈ l
      · have e1 : (l.filter p).elem a = true := by simp [hm, hp]
        have e2 : l.elem a = true := by simp [hm]
        rw [e1, e2]; rfl
      · have e1 : (l.filter p).elem a = false := by simp [hm]
        have e2 : l.elem a = false := by simp [hm]
        rw [e1, e2]
        simp only [Bool.not_false, if_true]
        rw [show [a].eraseDups = [a] from rfl]
        simp [hp]
    · simp only [hp, List.removeAll, List.filter_cons, List.filter_nil]
      by_cases hm : a ∈ l
      · have e2 : l.elem a = true := by simp [hm]
        rw [e2]; rfl
      · have e2 : l.elem a = false := by simp [hm]
        rw [e2]
        simp only [Bool.not_false, if_true]
        rw [show [a].eraseDups = [a] from rfl]
        simp [hp]

/-- The annotated requests of a trace. -/
def notes (w : Nat) (l : List Rec) : List Note := (withPast l).map (noteOf w (start l))

theorem length_withPast (l : List Rec) : (withPast l).length = l.length := by
  have := congrArg List.length (map_snd_withPast l)
  simpa using this

theorem mem_withPast {l : List Rec} {x : List Rec × Rec} (h : x ∈ withPast l) :
    ∃ rest, l = x.1 ++ x.2 :: rest := by
  induction l using List.reverseRecOn with
  | nil => simp [withPast, withPastFrom] at h
  | append_singleton l r ih =>
    rw [withPast_append, List.mem_append, List.mem_singleton] at h
    rcases h with h | rfl
    · obtain ⟨rest, e⟩ := ih h
      refine ⟨rest ++ [r], ?_⟩
      conv => lhs; rw [e]
      simp
    · exact ⟨[], rfl⟩

theorem past_le {w : Nat} {l : List Rec} (h : Good w l) {x : List Rec × Rec} (hx : x ∈ withPast l) :
    ∀ q ∈ x.1, q.time ≤ x.2.time := by
  obtain ⟨rest, e⟩ := mem_withPast hx
  have hs := h.sorted
  rw [e] at hs
  intro q hq
  exact (List.pairwise_append.mp hs).2.2 q hq x.2 (by simp)

theorem mem_of_withPast {l : List Rec} {x : List Rec × Rec} (h : x ∈ withPast l) : x.2 ∈ l ∧ ∀ q ∈ x.1, q ∈ l := by
  obtain ⟨rest, e⟩ := mem_withPast h
  constructor
  · rw [e]; simp
  · intro q hq; rw [e]; simp [hq]

theorem creation_mem (x : List Rec × Rec) : creation x = x.2 ∨ creation x ∈ x.1 := by
  unfold creation
  cases h : requestsTo x.1 x.2.id with
  | nil => left; rfl
  | cons a l =>
    right
    have : a ∈ requestsTo x.1 x.2.id := by rw [h]; simp
    exact List.fst_mem_of_mem_zipIdx (List.mem_filter.mp this).1

theorem previous_mem {x : List Rec × Rec} {q : Rec × Nat} (h : previous x = some q) :
    q.1 ∈ x.1 ∧ q.1.id = x.2.id ∧ 1 ≤ q.2 ∧ q.2 ≤ x.1.length := by
  have := List.mem_of_getLast? h
  obtain ⟨h1, h2⟩ := List.mem_filter.mp this
  have h3 := List.mem_zipIdx h1
  exact ⟨List.fst_mem_of_mem_zipIdx h1, by simpa using h2, by omega, by omega⟩

theorem notes_length (w : Nat) (l : List Rec) : (notes w l).length = l.length := by
  unfold notes; rw [List.length_map, length_withPast]

theorem notes_ne {w : Nat} {l : List Rec} (h : Good w l) : notes w l ≠ [] := by
  intro e
  have := congrArg List.length e
  rw [notes_length] at this
  exact h.nonempty (List.length_eq_zero_iff.mp this)

theorem withPast_sorted {w : Nat} {l : List Rec} (h : Good w l) : (withPast l).Pairwise (fun a b => a.2.time ≤ b.2.time) := by
  have := h.sorted
  rw [← map_snd_withPast l, List.pairwise_map] at this
  exact this

theorem notes_head {w : Nat} {l : List Rec} (h : Good w l) :
    ∃ r, l.head? = some r ∧ (withPast l).head? = some ([], r) ∧ (notes w l).head? = some (noteOf w (start l) ([], r)) := by
  cases l with
  | nil => exact absurd rfl h.nonempty
  | cons r l => exact ⟨r, rfl, rfl, rfl⟩

theorem notes_timed {w : Nat} {l : List Rec} (h : Good w l) : Timed (notes w l) := by
  constructor
  · unfold notes
    rw [List.pairwise_map]
    refine (withPast_sorted h).imp ?_
    intro a b hab
    show a.2.time - start l ≤ b.2.time - start l
    omega
  · intro n hn
    obtain ⟨r, h1, h2, h3⟩ := notes_head h
    rw [h3] at hn
    cases hn
    show r.time - start l = 0
    unfold start
    rw [h1]
    simp

theorem notes_first {w : Nat} {l : List Rec} (h : Good w l) : ∀ n, (notes w l).head? = some n → n.rSince < 0 := by
  intro n hn
  obtain ⟨r, h1, h2, h3⟩ := notes_head h
  rw [h3] at hn
  cases hn
  show (((previous ([], r)).map (fun q => r.time - q.1.time)).getD (-1)) < 0
  rw [show previous ([], r) = none from rfl]
  simp

theorem notes_born {w : Nat} {l : List Rec} (h : Good w l) : Born (notes w l) := by
  refine ⟨notes_timed h, fun n hn => ?_⟩
  obtain ⟨x, hx, rfl⟩ := List.mem_map.mp hn
  obtain ⟨b1, b2⟩ := good_bounds h
  obtain ⟨m1, m2⟩ := mem_of_withPast hx
  have hs := h.short
  have hp := past_le h hx
  have hw := h.window
  show 0 ≤ (creation x).time - start l ∧ (creation x).time - start l ≤ x.2.time - start l ∧ x.2.time - start l ≤ 2147483647
  have c2 := b2 x.2 m1
  rcases creation_mem x with e | hc
  · rw [e]
    have := b1 x.2 m1
    omega
  · have h1 := b1 _ (m2 _ hc)
    have h2 := hp _ hc
    omega

/-- The pass, with its annotated requests. -/
theorem pass_ok {w warmup : Nat} {l : List Rec} (h : Good w l) (hw : warmup % w = 0) :
    ∃ p, pass w warmup l = .ok p ∧ p.notes = notes w l ∧ p.endTs = finish l ∧ Inv w (start l) l p.st := by
  obtain ⟨s, h1, h2⟩ := pass_spec h hw
  exact ⟨_, h1, rfl, rfl, h2⟩

theorem rSince_iff {w : Nat} {l : List Rec} (h : Good w l) {x : List Rec × Rec} (hx : x ∈ withPast l) :
    (noteOf w (start l) x).rSince < 0 ↔ isFirst x := by
  rw [isFirst_iff]
  show ((previous x).map (fun q => x.2.time - q.1.time)).getD (-1) < 0 ↔ _
  cases hp : previous x with
  | none => simp
  | some q =>
    have := past_le h hx q.1 (previous_mem hp).1
    simp
    omega

theorem rSince_toNat {w : Nat} {l : List Rec} (x : List Rec × Rec) :
    (noteOf w (start l) x).rSince.toNat = gapTime x := by
  show (((previous x).map (fun q => x.2.time - q.1.time)).getD (-1)).toNat = gapTime x
  unfold gapTime
  cases previous x <;> rfl

theorem vSince_toNat {w : Nat} {l : List Rec} {x : List Rec × Rec} :
    (noteOf w (start l) x).vSince.toNat = gapReqs x := by
  show (((previous x).map (fun q => (x.1.length : Int) + 1 - q.2)).getD (-1)).toNat = gapReqs x
  unfold gapReqs
  cases hp : previous x with
  | none => rfl
  | some q =>
    have := previous_mem hp
    simp

/-! ## Windows -/

theorem events_eq (w : Nat) (l : List Rec) :
    (notes w l).map (fun n => (n.rel.toNat, n)) = (timeline l).map (fun y => (y.1, noteOf w (start l) y.2)) := by
  unfold notes timeline
  rw [List.map_map, List.map_map]
  rfl

theorem cell_eq {α : Type} (w : Nat) (a0 zero : α) (count : α → Note → α) (st : Int) (es : List (Nat × (List Rec × Rec))) (k : Nat) :
    cell a0 zero count (charged w 0 (es.map (fun y => (y.1, noteOf w st y.2)))) k =
      ((chargedTo w k es).map (noteOf w st)).foldl count (if k = 0 then a0 else zero) := by
  unfold cell chargedTo
  rw [charged_map, List.filter_map, List.map_map, List.map_map]
  rfl

theorem timeline_last {w : Nat} {l : List Rec} (h : Good w l) :
    (((timeline l).getLast?).map (fun y => y.1)).getD 0 = (finish l - start l).toNat := by
  unfold timeline finish
  cases l using List.reverseRecOn with
  | nil => exact absurd rfl h.nonempty
  | append_singleton l r =>
    rw [withPast_append]
    simp [since]

theorem timeline_sorted {w : Nat} {l : List Rec} (h : Good w l) : (timeline l).Pairwise (fun a b => a.1 ≤ b.1) := by
  unfold timeline
  rw [List.pairwise_map]
  refine (withPast_sorted h).imp ?_
  intro a b hab
  unfold since
  omega

theorem charged_length {β : Type} (w : Nat) : ∀ (l : List (Nat × β)) (k : Nat), (charged w k l).length = l.length := by
  intro l
  induction l with
  | nil => intro k; rfl
  | cons a l ih => intro k; obtain ⟨a1, a2⟩ := a; simp [charged, ih]

theorem chargedTo_length_le (w k : Nat) (es : List (Nat × (List Rec × Rec))) : (chargedTo w k es).length ≤ es.length := by
  unfold chargedTo
  rw [List.length_map]
  exact Nat.le_trans (List.length_filter_le _ _) (Nat.le_of_eq (charged_length w es 0))

theorem charged_snd {β : Type} (w : Nat) : ∀ (l : List (Nat × β)) (k : Nat), (charged w k l).map (·.2) = l.map (·.2) := by
  intro l
  induction l with
  | nil => intro k; rfl
  | cons a l ih => intro k; obtain ⟨a1, a2⟩ := a; simp [charged, ih]

theorem chargedTo_sublist (w k : Nat) (l : List Rec) : (chargedTo w k (timeline l)).Sublist (withPast l) := by
  have e : (timeline l).map (·.2) = withPast l := by
    unfold timeline; rw [List.map_map]; exact List.map_id _
  rw [← e, ← charged_snd w (timeline l) 0]
  unfold chargedTo
  exact List.filter_sublist.map _

theorem chargedTo_bytes {w : Nat} {l : List Rec} (h : Good w l) (k : Nat) :
    ((chargedTo w k (timeline l)).map (fun x => x.2.size)).sum < two64 := by
  refine Nat.lt_of_le_of_lt (sublist_sum_le ((chargedTo_sublist w k l).map _)) ?_
  have : (withPast l).map (fun x => x.2.size) = l.map (·.size) := by
    conv => rhs; rw [← map_snd_withPast l, List.map_map]
    rfl
  rw [this]
  exact h.bytes

theorem timeline_length (l : List Rec) : (timeline l).length = l.length := by
  unfold timeline; rw [List.length_map, length_withPast]

theorem mem_charged {β : Type} {w : Nat} : ∀ {l : List (Nat × β)} {k : Nat} {y : Nat × β}, y ∈ charged w k l → ∃ t, (t, y.2) ∈ l := by
  intro l
  induction l with
  | nil => intro k y h; simp [charged] at h
  | cons a l ih =>
    intro k y h
    obtain ⟨a1, a2⟩ := a
    simp only [charged, List.mem_cons] at h
    rcases h with rfl | h
    · exact ⟨a1, by simp⟩
    · obtain ⟨t, ht⟩ := ih h
      exact ⟨t, List.mem_cons_of_mem _ ht⟩

/-- Charged to a window other than the first that is reported: as many requests as fall in it; charged
to the first: one more. -/
theorem chargedTo_length {w : Nat} {l : List Rec} (h : Good w l) (k : Nat) (hk : k < (finish l - start l).toNat / w) :
    (chargedTo w k (timeline l)).length = l.countP (fun r => decide (since (start l) r / w = k)) + if k = 0 then 1 else 0 := by
  unfold chargedTo
  rw [List.length_map, ← List.countP_eq_length_filter]
  have hne : timeline l ≠ [] := by
    intro e
    have := congrArg List.length e
    rw [timeline_length] at this
    exact h.nonempty (List.length_eq_zero_iff.mp this)
  rw [charged_count w (timeline l) 0 k hne]
  have hl := timeline_last h
  have hc : (timeline l).countP (fun y => decide (y.1 / w = k)) = l.countP (fun r => decide (since (start l) r / w = k)) := by
    generalize hs : start l = st
    conv => rhs; rw [← map_snd_withPast l]
    unfold timeline
    rw [List.countP_map, List.countP_map, hs]
    rfl
  rw [← hc]
  generalize timeline l = t at hne hl
  cases t using List.reverseRecOn with
  | nil => exact absurd rfl hne
  | append_singleton t a =>
    have ha : a.1 = (finish l - start l).toNat := by simpa using hl
    rw [List.dropLast_concat, List.countP_append]
    have : ¬ a.1 / w = k := by rw [ha]; omega
    simp only [List.countP_cons, List.countP_nil, decide_eq_true_eq, this, if_false]
    by_cases h0 : k = 0
    · subst h0; rfl
    · have : ¬ 0 = k := Ne.symm h0
      rw [if_neg h0, if_neg this]

/-! ## Requests to an object -/

theorem evs_notes (w : Nat) (l : List Rec) (k : Nat) :
    (evs (notes w l) k).map (fun x => ((x.1.rel, x.1.createR), x.2)) =
      (((withPast l).zipIdx 1).filter (fun x => decide (x.1.2.id = k))).map (fun x => ((x.1.2.time - start l, (creation x.1).time - start l), x.2)) := by
  unfold evs notes
  rw [List.zipIdx_map, List.filter_map, List.map_map]
  rfl

theorem zipIdx_withPast (l : List Rec) : ((withPast l).zipIdx 1).map (fun x => (x.1.2, x.2)) = l.zipIdx 1 := by
  conv => rhs; rw [← map_snd_withPast l]
  rw [List.zipIdx_map]
  apply List.map_congr_left
  rintro ⟨a, b⟩ _
  rfl

/-- A function of time and position over the requests to an object. -/
theorem evs_requestsTo {α : Type} (w : Nat) (l : List Rec) (k : Nat) (g : Int → Nat → α) :
    (evs (notes w l) k).map (fun x => g x.1.rel x.2) = (requestsTo l k).map (fun q => g (q.1.time - start l) q.2) := by
  unfold evs notes requestsTo
  rw [← zipIdx_withPast, List.zipIdx_map, List.filter_map, List.map_map, List.filter_map, List.map_map]
  rfl

theorem ids_notes (w : Nat) (l : List Rec) : (notes w l).map (·.id) = l.map (·.id) := by
  unfold notes
  rw [List.map_map]
  conv => rhs; rw [← map_snd_withPast l, List.map_map]
  rfl

theorem firstPos_lt (l : List Rec) : (objects l).Pairwise (fun a b => firstPos l a < firstPos l b) ∧
    ∀ a ∈ objects l, 1 ≤ firstPos l a ∧ firstPos l a ≤ l.length := by
  induction l using List.reverseRecOn with
  | nil => exact ⟨by decide, by simp [objects]⟩
  | append_singleton l r ih =>
    obtain ⟨h1, h2⟩ := ih
    have hold : ∀ a ∈ objects l, firstPos (l ++ [r]) a = firstPos l a := by
      intro a ha
      unfold firstPos
      rw [requestsTo_append]
      cases he : requestsTo l a with
      | nil =>
        rw [requestsTo_nil] at he
        obtain ⟨q, hq, e⟩ := (mem_objects l a).mp ha
        exact absurd e (he q hq)
      | cons b t => rfl
    have hmem : ∀ a ∈ objects l, 1 ≤ firstPos (l ++ [r]) a ∧ firstPos (l ++ [r]) a ≤ l.length := by
      intro a ha; rw [hold a ha]; exact h2 a ha
    have hpw : (objects l).Pairwise (fun a b => firstPos (l ++ [r]) a < firstPos (l ++ [r]) b) := by
      refine List.Pairwise.imp_of_mem ?_ h1
      intro a b ha hb hab
      rw [hold a ha, hold b hb]; exact hab
    have hin : r.id ∈ l.map (·.id) ↔ r.id ∈ objects l := by unfold objects; rw [List.mem_eraseDups]
    rw [objects_append]
    by_cases hr : r.id ∈ objects l
    · rw [if_pos (hin.mpr hr), List.append_nil]
      refine ⟨hpw, fun a ha => ?_⟩
      have := hmem a ha
      simp; omega
    · rw [if_neg (mt hin.mp hr)]
      have hnew : firstPos (l ++ [r]) r.id = l.length + 1 := by
        unfold firstPos
        rw [requestsTo_append]
        have : requestsTo l r.id = [] := by
          rw [requestsTo_nil]
          intro q hq e
          exact hr ((mem_objects l r.id).mpr ⟨q, hq, e⟩)
        rw [this]
        simp
      refine ⟨?_, ?_⟩
      · rw [List.pairwise_append]
        refine ⟨hpw, by simp, ?_⟩
        intro a ha b hb
        rw [List.mem_singleton] at hb
        subst hb
        have := hmem a ha
        omega
      · intro a ha
        rw [List.mem_append, List.mem_singleton] at ha
        rcases ha with ha | rfl
        · have := hmem a ha; simp; omega
        · rw [hnew]; simp

/-- There are as many first requests as objects. -/
theorem count_first (l : List Rec) : (withPast l).countP (fun x => decide (isFirst x)) = (objects l).length := by
  induction l using List.reverseRecOn with
  | nil => rfl
  | append_singleton l r ih =>
    rw [withPast_append, List.countP_append, ih, objects_append, List.length_append]
    congr 1
    by_cases h : r.id ∈ l.map (·.id)
    · have hn : ¬ isFirst (l, r) := by
        intro hf
        obtain ⟨q, hq, e⟩ := List.mem_map.mp h
        exact hf q hq e
      rw [if_pos h]
      simp [hn]
    · have hn : isFirst (l, r) := by
        intro q hq e
        exact h (List.mem_map.mpr ⟨q, hq, e⟩)
      rw [if_neg h]
      simp [hn]

/-- The lines `AccessPattern` collects. -/
theorem push_lines (w : Nat) (l : List Rec) (ratio : Nat) (g : Int → Nat → Nat) :
    (((((notes w l).zipIdx 1).filter (fun n => decide (n.1.id % ratio = 0))).map (fun n => (n.1.id, g n.1.rel n.2))).foldl (fun m e => pushKey e.1 e.2 m) []).map (·.2) =
      ((objects l).filter (fun id => decide (id % ratio = 0))).map (fun id => (requestsTo l id).map (fun q => g (q.1.time - start l) q.2)) := by
  rw [push_fold, List.map_map, List.map_map]
  have hk : ((((notes w l).zipIdx 1).filter (fun n => decide (n.1.id % ratio = 0))).map ((fun x => x.1) ∘ fun n => (n.1.id, g n.1.rel n.2))) = (l.map (·.id)).filter (fun id => decide (id % ratio = 0)) := by
    have e : ((notes w l).zipIdx 1).map (fun n => n.1.id) = l.map (·.id) := by
      rw [← ids_notes w l]
      conv => rhs; rw [← List.zipIdx_map_fst 1 (notes w l), List.map_map]
      rfl
    rw [← e, List.filter_map]
    rfl
  rw [hk, eraseDups_filter]
  show ((objects l).filter _).map _ = _
  apply List.map_congr_left
  intro id hid
  have hid' : id % ratio = 0 := by simpa using (List.mem_filter.mp hid).2
  simp only [Function.comp]
  rw [← evs_requestsTo w l id g, List.filter_map, List.map_map, List.filter_filter]
  unfold evs
  have : ((notes w l).zipIdx 1).filter (fun a => (((fun e : Nat × Nat => decide (e.1 = id)) ∘ fun n : Note × Nat => (n.1.id, g n.1.rel n.2)) a && decide (a.1.id % ratio = 0))) = ((notes w l).zipIdx 1).filter (fun x => decide (x.1.id = id)) := by
    apply List.filter_congr
    intro x _
    simp only [Function.comp]
    by_cases hx : x.1.id = id
    · simp [hx, hid']
    · simp [hx]
  rw [this]
  rfl

theorem first_le_last {l : List Rec} (h : l.Pairwise (fun a b => a.time ≤ b.time)) {id : Nat} (hid : id ∈ objects l) :
    firstAt l id ≤ lastAt l id ∧ firstPos l id ≤ lastPos l id := by
  unfold firstAt lastAt firstPos lastPos
  have hs : (requestsTo l id).Pairwise (fun a b => a.1.time ≤ b.1.time ∧ a.2 ≤ b.2) := by
    unfold requestsTo
    apply List.Pairwise.filter
    clear hid
    generalize 1 = k
    induction l generalizing k with
    | nil => simp
    | cons r l ih =>
      obtain ⟨h1, h2⟩ := List.pairwise_cons.mp h
      rw [List.zipIdx_cons]
      refine List.pairwise_cons.mpr ⟨fun x hx => ?_, ih h2 (k + 1)⟩
      have := List.mem_zipIdx hx
      exact ⟨h1 x.1 (List.fst_mem_of_mem_zipIdx hx), by simp only; omega⟩
  generalize requestsTo l id = t at hs
  cases t with
  | nil => exact ⟨Nat.le_refl _, Nat.le_refl _⟩
  | cons a t =>
    cases t using List.reverseRecOn with
    | nil => exact ⟨Nat.le_refl _, Nat.le_refl _⟩
    | append_singleton t b =>
      have := (List.pairwise_cons.mp hs).1 b (by simp)
      have e : (a :: (t ++ [b])).getLast? = some b := by rw [← List.cons_append]; exact List.getLast?_concat
      rw [e]
      simp only [List.head?_cons, Option.map_some, Option.getD_some]
      refine ⟨?_, this.2⟩
      unfold since
      omega

theorem absPos_label (d : Int) :
    ∃ lab, absLabels[absPos d]? = some lab ∧ (d = 0 → lab = 0) ∧
      (0 < d → 0 < lab ∧ lab ≤ d ∧ (d < 32768 → d < 2 * lab)) ∧ (d < 0 → lab < 0 ∧ d ≤ lab ∧ (-32768 < d → 2 * lab < d)) := by
  have hpow : ∀ k, k ≤ 15 → k ≠ 0 → absLabels[16 + k]? = some ((2 ^ (k - 1) : Nat) : Int) ∧ absLabels[16 - k]? = some (-((2 ^ (k - 1) : Nat) : Int)) := by
    decide +kernel
  have h15 : (2 : Nat) ^ 15 = 32768 := by decide
  by_cases h0 : d = 0
  · subst h0
    exact ⟨0, rfl, fun _ => rfl, by omega, by omega⟩
  · by_cases hp : 0 < d
    · obtain ⟨b1, b2, b3⟩ := bitLen_spec d.toNat (by omega)
      generalize hk : bitLen d.toNat = k at b1 b2 b3
      have e2 : 2 ^ k = 2 * 2 ^ (k - 1) := by rw [← Nat.pow_succ']; congr 1; omega
      by_cases hk15 : k ≤ 15
      · refine ⟨((2 ^ (k - 1) : Nat) : Int), ?_, by omega, fun _ => ⟨?_, by omega, by omega⟩, by omega⟩
        · have : absPos d = 16 + k := by
            unfold absPos
            rw [if_neg h0]
            simp only [if_pos hp, hk]
            rw [if_neg (by omega), if_neg (by omega)]
            omega
          rw [this]
          exact (hpow k hk15 (by omega)).1
        · have := Nat.two_pow_pos (k - 1); omega
      · have hge : 2 ^ 15 ≤ 2 ^ (k - 1) := Nat.pow_le_pow_right (by decide) (by omega)
        refine ⟨16384, ?_, by omega, fun _ => ⟨by omega, by omega, by omega⟩, by omega⟩
        have : absPos d = 32 := by
          unfold absPos
          rw [if_neg h0]
          simp only [if_pos hp, hk]
          by_cases h17 : k ≥ 17
          · rw [if_pos (by omega)]
          · rw [if_neg (by omega), if_neg (by omega)]; omega
        rw [this]
        rfl
    · obtain ⟨b1, b2, b3⟩ := bitLen_spec (-d).toNat (by omega)
      generalize hk : bitLen (-d).toNat = k at b1 b2 b3
      have e2 : 2 ^ k = 2 * 2 ^ (k - 1) := by rw [← Nat.pow_succ']; congr 1; omega
      by_cases hk15 : k ≤ 15
      · refine ⟨-((2 ^ (k - 1) : Nat) : Int), ?_, by omega, by omega, fun _ => ⟨?_, by omega, by omega⟩⟩
        · have : absPos d = 16 - k := by
            unfold absPos
            rw [if_neg h0]
            simp only [if_neg hp, hk]
            rw [if_neg (by omega), if_neg (by omega)]
            omega
          rw [this]
          exact (hpow k hk15 (by omega)).2
        · have := Nat.two_pow_pos (k - 1); omega
      · have hge : 2 ^ 15 ≤ 2 ^ (k - 1) := Nat.pow_le_pow_right (by decide) (by omega)
        refine ⟨-16384, ?_, by omega, by omega, fun _ => ⟨by omega, by omega, by omega⟩⟩
        have : absPos d = 0 := by
          unfold absPos
          rw [if_neg h0]
          simp only [if_neg hp, hk]
          by_cases h17 : k ≥ 17
          · rw [if_neg (by omega), if_pos (by omega)]
          · rw [if_neg (by omega), if_neg (by omega)]; omega
        rw [this]
        rfl

/-! ## A pass that finishes -/

theorem advance_ge {w : Nat} {t : Int} : ∀ {fuel next idx : Nat} {a : Nat × Nat}, advance w t fuel next idx = .ok a → idx ≤ a.2 := by
  intro fuel
  induction fuel with
  | zero => intro next idx a h; simp [advance] at h
  | succ fuel ih =>
    intro next idx a h
    unfold advance at h
    split at h
    · split at h
      · simp at h
      · have := ih h; omega
    · cases h; exact Nat.le_refl _

theorem annotate_ok {s s' : State} {r : Rec} {n : Note} (h : annotate s r = .ok (n, s')) :
    s'.w = s.w ∧ s.widx ≤ s'.widx ∧ s'.widx = windowIdx s.w n.rel := by
  unfold annotate at h
  simp only at h
  obtain ⟨a, h1, h2⟩ := Res.bind_eq_ok.mp h
  have hge := advance_ge h1
  split at h2
  · simp at h2
  · rename_i hne
    rw [Decidable.not_not] at hne
    split at h2
    · cases h2; exact ⟨rfl, hge, hne⟩
    · split at h2
      · simp at h2
      · split at h2
        · simp at h2
        · cases h2; exact ⟨rfl, hge, hne⟩

theorem annotateAll_order : ∀ {l : List Rec} {s s' : State} {ns : List Note}, annotateAll s l = .ok (ns, s') →
    ns.Pairwise (fun a b => windowIdx s.w a.rel ≤ windowIdx s.w b.rel) ∧ ∀ n ∈ ns, s.widx ≤ windowIdx s.w n.rel := by
  intro l
  induction l with
  | nil => intro s s' ns h; cases h; simp
  | cons r l ih =>
    intro s s' ns h
    unfold annotateAll at h
    obtain ⟨⟨n, s1⟩, h1, h2⟩ := Res.bind_eq_ok.mp h
    obtain ⟨⟨ms, s2⟩, h3, h4⟩ := Res.bind_eq_ok.mp h2
    cases h4
    obtain ⟨e1, e2, e3⟩ := annotate_ok h1
    obtain ⟨i1, i2⟩ := ih (s := s1) h3
    rw [e1] at i1 i2
    refine ⟨List.pairwise_cons.mpr ⟨fun m hm => ?_, i1⟩, fun m hm => ?_⟩
    · have := i2 m hm; simp only; omega
    · rw [List.mem_cons] at hm
      rcases hm with rfl | hm
      · omega
      · have := i2 m hm; omega

theorem windows_in_order {w warmup : Nat} {l : List Rec} {p : Pass} (h : pass w warmup l = .ok p) :
    p.notes.Pairwise (fun a b => windowIdx w a.rel ≤ windowIdx w b.rel) := by
  unfold pass at h
  split at h
  · simp at h
  · split at h
    · simp at h
    · obtain ⟨⟨ns, s⟩, h1, h2⟩ := Res.bind_eq_ok.mp h
      cases h2
      exact (annotateAll_order h1).1

end Verif.Analyzer
