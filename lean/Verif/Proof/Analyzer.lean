import Verif.Analyzer.Modules
import Verif.Spec.TraceStats
import Mathlib.Data.List.Basic
import Mathlib.Data.List.Induction

/-!
# The analyzer's pass keeps exact facts about the trace read so far
-/

namespace Verif.Analyzer
open Spec.TraceStats

/-! ## Association lists -/

theorem lookup_append_single {κ ν : Type} [BEq κ] (m : List (κ × ν)) (k j : κ) (v : ν) :
    (m ++ [(k, v)]).lookup j = (m.lookup j).or (if j == k then some v else none) := by
  induction m with
  | nil => simp [List.lookup]; split <;> simp_all
  | cons a m ih =>
    simp only [List.cons_append, List.lookup]
    split
    · simp
    · exact ih

theorem lookup_none_iff {κ ν : Type} [DecidableEq κ] (m : List (κ × ν)) (k : κ) :
    m.lookup k = none ↔ k ∉ m.map (·.1) := by
  induction m with
  | nil => simp
  | cons a m ih =>
    simp only [List.lookup, List.map_cons, List.mem_cons, not_or]
    by_cases h : k = a.1
    · simp [h]
    · simp [h, ih, beq_false_of_ne h]

theorem lookup_setInfo (m : List (Nat × Info)) (id j : Nat) (i : Info) :
    (setInfo m id i).lookup j = if j = id then (m.lookup id).map (fun _ => i) else m.lookup j := by
  induction m with
  | nil => simp [setInfo]
  | cons a m ih =>
    have e : setInfo (a :: m) id i = (if a.1 = id then (a.1, i) else a) :: setInfo m id i := rfl
    rw [e]
    by_cases ha : a.1 = id
    · rw [if_pos ha]
      simp only [List.lookup]
      by_cases hj : j = a.1
      · subst hj; simp [ha]
      · have : (j == a.1) = false := beq_false_of_ne hj
        simp only [this, ih]
        have hj' : j ≠ id := fun h => hj (h.trans ha.symm)
        simp [hj']
    · rw [if_neg ha]
      simp only [List.lookup]
      by_cases hj : j = a.1
      · subst hj; simp [ha]
      · have : (j == a.1) = false := beq_false_of_ne hj
        simp only [this, ih]
        by_cases hj' : j = id
        · subst hj'; simp [beq_false_of_ne (Ne.symm ha)]
        · simp [hj']

theorem keys_setInfo (m : List (Nat × Info)) (id : Nat) (i : Info) :
    (setInfo m id i).map (·.1) = m.map (·.1) := by
  unfold setInfo
  rw [List.map_map]
  apply List.map_congr_left
  intro a _
  simp only [Function.comp]
  split <;> rfl

/-! ## Numbers -/

theorem i32_of {x : Int} (h0 : 0 ≤ x) (h : x ≤ 2147483647) : i32 x = x := by unfold i32; omega
theorem u32of_of {x : Int} (h0 : 0 ≤ x) (h : x ≤ 2147483647) : u32of x = x.toNat := by
  unfold u32of; omega

/-! ## The specification on a longer trace -/

theorem requestsTo_append (p : List Rec) (r : Rec) (id : Nat) :
    requestsTo (p ++ [r]) id = requestsTo p id ++ (if r.id = id then [(r, p.length + 1)] else []) := by
  unfold requestsTo
  rw [List.zipIdx_append, List.filter_append]
  congr 1
  simp only [List.zipIdx_cons, List.zipIdx_nil, List.filter_cons, List.filter_nil, decide_eq_true_eq, Nat.add_comm]

theorem length_requestsTo (p : List Rec) (id : Nat) : (requestsTo p id).length = freq p id := by
  induction p using List.reverseRecOn with
  | nil => rfl
  | append_singleton p r ih =>
    rw [requestsTo_append, List.length_append, ih]
    unfold freq
    rw [List.countP_append]
    congr 1
    by_cases h : r.id = id <;> simp [h]

theorem requestsTo_nil (p : List Rec) (id : Nat) :
    requestsTo p id = [] ↔ ∀ q ∈ p, q.id ≠ id := by
  rw [← List.length_eq_zero_iff, length_requestsTo]
  unfold freq
  rw [List.countP_eq_zero]
  simp

theorem mem_requestsTo {p : List Rec} {id : Nat} {x : Rec × Nat} (h : x ∈ requestsTo p id) :
    x.1 ∈ p ∧ x.1.id = id ∧ 1 ≤ x.2 ∧ x.2 ≤ p.length := by
  unfold requestsTo at h
  rw [List.mem_filter] at h
  obtain ⟨h1, h2⟩ := h
  have h3 := List.mem_zipIdx h1
  refine ⟨by rw [h3.2.2]; exact List.getElem_mem _, by simpa using h2, ?_, ?_⟩ <;> omega

theorem requestsTo_of_mem {p : List Rec} {q : Rec} (h : q ∈ p) :
    ∃ n, (q, n) ∈ requestsTo p q.id := by
  induction p using List.reverseRecOn with
  | nil => simp at h
  | append_singleton p r ih =>
    rw [List.mem_append, List.mem_singleton] at h
    rcases h with h | h
    · obtain ⟨n, hn⟩ := ih h
      exact ⟨n, by rw [requestsTo_append]; exact List.mem_append_left _ hn⟩
    · subst h
      exact ⟨p.length + 1, by rw [requestsTo_append]; simp⟩

theorem objects_append (p : List Rec) (r : Rec) :
    objects (p ++ [r]) = objects p ++ (if r.id ∈ p.map (·.id) then [] else [r.id]) := by
  unfold objects
  rw [List.map_append, List.eraseDups_append]
  congr 1
  simp only [List.map_cons, List.map_nil, List.removeAll, List.filter_cons, List.filter_nil]
  by_cases h : r.id ∈ p.map (·.id)
  · simp [List.elem_eq_contains, h]
  · have : (p.map (·.id)).elem r.id = false := by simpa using h
    simp only [this, Bool.not_false, if_true, if_neg h]
    rfl

theorem mem_objects (p : List Rec) (id : Nat) : id ∈ objects p ↔ ∃ q ∈ p, q.id = id := by
  unfold objects
  rw [List.mem_eraseDups, List.mem_map]

theorem nodup_objects (p : List Rec) : (objects p).Nodup := by
  induction p using List.reverseRecOn with
  | nil => simp [objects]
  | append_singleton p r ih =>
    rw [objects_append]
    split
    · simpa using ih
    · rename_i h
      rw [List.nodup_append]
      refine ⟨ih, by simp, ?_⟩
      intro a ha b hb e
      simp only [List.mem_singleton] at hb
      subst e; subst hb
      apply h
      rw [mem_objects] at ha
      obtain ⟨q, hq, e⟩ := ha
      exact List.mem_map.mpr ⟨q, hq, e⟩

theorem withPastFrom_append (q p : List Rec) (r : Rec) :
    withPastFrom q (p ++ [r]) = withPastFrom q p ++ [(q ++ p, r)] := by
  induction p generalizing q with
  | nil => simp [withPastFrom]
  | cons a p ih => simp [withPastFrom, ih, List.append_assoc]

theorem withPast_append (p : List Rec) (r : Rec) : withPast (p ++ [r]) = withPast p ++ [(p, r)] := by
  unfold withPast; rw [withPastFrom_append]; simp

theorem map_snd_withPast (l : List Rec) : (withPast l).map (·.2) = l := by
  induction l using List.reverseRecOn with
  | nil => rfl
  | append_singleton p r ih => rw [withPast_append, List.map_append, ih]; rfl

/-! ## The window loop -/

theorem advance_spec {w : Nat} (hw : 0 < w) (t : Nat) (ht : t + w ≤ 2147483647) :
    ∀ fuel idx, idx * w ≤ t → t < (idx + 1) * w + (fuel - 1) → 1 ≤ fuel →
      advance w (t : Int) fuel ((idx + 1) * w) idx = .ok ((t / w + 1) * w, t / w) := by
  intro fuel
  induction fuel with
  | zero => intro idx _ _ h; omega
  | succ fuel ih =>
    intro idx h1 h2 _
    unfold advance
    by_cases h : (idx + 1) * w ≤ t
    · have h' : ((((idx + 1) * w : Nat)) : Int) ≤ (t : Int) := by exact_mod_cast h
      rw [if_pos h']
      have : ¬ (idx + 1) * w + w > 2147483647 := by omega
      rw [if_neg this]
      have e : (idx + 1) * w + w = (idx + 1 + 1) * w := by rw [Nat.add_mul (idx + 1)]; omega
      rw [e]
      apply ih
      · exact h
      · rw [← e]; omega
      · omega
    · have h' : ¬ ((((idx + 1) * w : Nat)) : Int) ≤ (t : Int) := by exact_mod_cast h
      rw [if_neg h']
      have : t / w = idx := by
        apply Nat.le_antisymm
        · exact Nat.lt_succ_iff.mp ((Nat.div_lt_iff_lt_mul hw).mpr (by simpa using (Nat.lt_of_not_le h)))
        · exact (Nat.le_div_iff_mul_le hw).mpr h1
      rw [this]

/-! ## Annotations and object records, read off the trace -/

/-- What the analyzer knows about an object after the requests `p`. -/
def infoOf (st : Int) (p : List Rec) (id : Nat) : Option Info :=
  match requestsTo p id with
  | [] => none
  | f :: t => some { lastV := ((f :: t).getLast (by simp)).2, size := ((f :: t).getLast (by simp)).1.size % two32, lastR := ((f :: t).getLast (by simp)).1.time - st, freq := (f :: t).length, createR := f.1.time - st }

/-- The annotation of the request `x.2` after the requests `x.1`. -/
def noteOf (w : Nat) (st : Int) (x : List Rec × Rec) : Note :=
  { rel := x.2.time - st, id := x.2.id, size := x.2.size, ttl := x.2.ttl, op := x.2.op, vSince := ((previous x).map (fun q => (x.1.length : Int) + 1 - q.2)).getD (-1), rSince := ((previous x).map (fun q => x.2.time - q.1.time)).getD (-1), prevSize := ((previous x).map (fun q => ((q.1.size % two32 : Nat) : Int))).getD (-1), createR := (creation x).time - st, compulsory := decide (isFirst x), overwrite := decide (¬ isFirst x ∧ (x.2.op = opSet ∨ x.2.op = opReplace ∨ x.2.op = opCas)), first := decide (firstInWindow w st x) }

theorem infoOf_append (st : Int) (p : List Rec) (r : Rec) (id : Nat) :
    infoOf st (p ++ [r]) id = if r.id = id then
      some { lastV := ((p.length + 1 : Nat) : Int), size := r.size % two32, lastR := r.time - st, freq := freq p id + 1, createR := (creation (p, r)).time - st }
      else infoOf st p id := by
  unfold infoOf
  by_cases h : r.id = id
  · subst h
    rw [if_pos rfl]
    have e := requestsTo_append p r r.id
    rw [if_pos rfl] at e
    rw [e]
    cases hp : requestsTo p r.id with
    | nil =>
      have hf : freq p r.id = 0 := by rw [← length_requestsTo, hp]; rfl
      simp [creation, hp, hf]
    | cons f t =>
      have hf : freq p r.id = t.length + 1 := by rw [← length_requestsTo, hp]; rfl
      simp [creation, hp, hf]
  · rw [if_neg h]
    have e : requestsTo (p ++ [r]) id = requestsTo p id := by
      rw [requestsTo_append, if_neg h, List.append_nil]
    rw [e]

/-- The bytes of the first requests to the objects. -/
def firstBytes (p : List Rec) : Nat :=
  (((withPast p).filter (fun x => decide (isFirst x))).map (fun x => x.2.size)).sum

/-- Seconds from the start to the last of the requests `p`. -/
def elapsed (st : Int) (p : List Rec) : Nat := ((p.getLast?).map (since st)).getD 0

/-- The state after the requests `p`. -/
structure Inv (w : Nat) (st : Int) (p : List Rec) (s : State) : Prop where
  win : s.w = w
  start : s.start = st
  widx : s.widx = elapsed st p / w
  next : s.next = (s.widx + 1) * w
  nReq : s.nReq = p.length
  sumReq : s.sumReq = (p.map (·.size)).sum % two64
  sumObj : s.sumObj = firstBytes p % two64
  keys : s.map.map (·.1) = objects p
  look : ∀ id, s.map.lookup id = infoOf st p id

theorem elapsed_append (st : Int) (p : List Rec) (r : Rec) : elapsed st (p ++ [r]) = since st r := by
  simp [elapsed]

theorem isFirst_iff (x : List Rec × Rec) : isFirst x ↔ previous x = none := by
  unfold isFirst previous
  rw [List.getLast?_eq_none_iff, requestsTo_nil]

theorem pairwise_append_single {p : List Rec} {r : Rec}
    (h : (p ++ [r]).Pairwise (fun a b => a.time ≤ b.time)) :
    p.Pairwise (fun a b => a.time ≤ b.time) ∧ ∀ q ∈ p, q.time ≤ r.time := by
  rw [List.pairwise_append] at h
  exact ⟨h.1, fun q hq => h.2.2 q hq r (by simp)⟩

/-- In a sorted trace the last request to an object is the latest one. -/
theorem last_latest {p : List Rec} (h : p.Pairwise (fun a b => a.time ≤ b.time)) (id : Nat) :
    ∀ x, (requestsTo p id).getLast? = some x → ∀ q ∈ p, q.id = id → q.time ≤ x.1.time := by
  induction p using List.reverseRecOn with
  | nil => intro x hx; simp [requestsTo] at hx
  | append_singleton p r ih =>
    intro x hx q hq hid
    obtain ⟨h1, h2⟩ := pairwise_append_single h
    rw [requestsTo_append] at hx
    by_cases hr : r.id = id
    · rw [if_pos hr, List.getLast?_concat] at hx
      cases hx
      rw [List.mem_append, List.mem_singleton] at hq
      rcases hq with hq | hq
      · exact h2 q hq
      · subst hq; exact Int.le_refl _
    · rw [if_neg hr, List.append_nil] at hx
      rw [List.mem_append, List.mem_singleton] at hq
      rcases hq with hq | hq
      · exact ih h1 x hx q hq hid
      · subst hq; exact absurd hid hr

theorem firstInWindow_iff {w : Nat} {st : Int} {p : List Rec} {r : Rec} {x : Rec × Nat}
    (hs : (p ++ [r]).Pairwise (fun a b => a.time ≤ b.time))
    (hx : (requestsTo p r.id).getLast? = some x) :
    firstInWindow w st (p, r) ↔ since st x.1 / w ≠ since st r / w := by
  obtain ⟨h1, h2⟩ := pairwise_append_single hs
  have hmem := mem_requestsTo (List.mem_of_getLast? hx)
  constructor
  · intro h
    exact h x.1 hmem.1 hmem.2.1
  · intro h q hq hid heq
    apply h
    have hl := last_latest h1 r.id x hx q hq hid
    have hr := h2 x.1 hmem.1
    have a1 : since st q ≤ since st x.1 := by unfold since; omega
    have a2 : since st x.1 ≤ since st r := by unfold since; omega
    have b1 := Nat.div_le_div_right (c := w) a1
    have b2 := Nat.div_le_div_right (c := w) a2
    simp only at heq
    omega

theorem elapsed_le {st : Int} {p : List Rec} {r : Rec} (h : ∀ q ∈ p, q.time ≤ r.time) :
    elapsed st p ≤ since st r := by
  unfold elapsed
  cases hp : p.getLast? with
  | none => exact Nat.zero_le _
  | some q =>
    have := h q (List.mem_of_getLast? hp)
    simp only [Option.map_some, Option.getD_some, since]
    omega

theorem infoOf_none {st : Int} {p : List Rec} {id : Nat} (h : infoOf st p id = none) :
    requestsTo p id = [] := by
  unfold infoOf at h
  split at h
  · assumption
  · exact absurd h (by simp)

theorem infoOf_some {st : Int} {p : List Rec} {id : Nat} {i : Info} (h : infoOf st p id = some i) :
    ∃ f q, (requestsTo p id).head? = some f ∧ (requestsTo p id).getLast? = some q ∧
      i = { lastV := q.2, size := q.1.size % two32, lastR := q.1.time - st, freq := freq p id, createR := f.1.time - st } := by
  unfold infoOf at h
  split at h
  · exact absurd h (by simp)
  · rename_i f t e
    refine ⟨f, (f :: t).getLast (by simp), by rw [e]; rfl, by rw [e]; exact List.getLast?_eq_some_getLast (by simp), ?_⟩
    rw [← length_requestsTo, e]
    simpa using h.symm

theorem firstBytes_append (p : List Rec) (r : Rec) :
    firstBytes (p ++ [r]) = firstBytes p + (if isFirst (p, r) then r.size else 0) := by
  unfold firstBytes
  rw [withPast_append, List.filter_append, List.map_append, List.sum_append]
  congr 1
  by_cases h : isFirst (p, r) <;> simp [h]

/-- One request: the annotation is the one the trace says, and the state stays exact. -/
theorem annotate_spec {w : Nat} {st : Int} {p : List Rec} {r : Rec} {s : State} (hw : 0 < w)
    (hi : Inv w st p s) (hs : (p ++ [r]).Pairwise (fun a b => a.time ≤ b.time))
    (hst : ∀ q ∈ p ++ [r], st ≤ q.time) (hsh : r.time - st + w ≤ 2147483647)
    (hn : p.length + 1 < two32) :
    ∃ s', annotate s r = .ok (noteOf w st (p, r), s') ∧ Inv w st (p ++ [r]) s' := by
  obtain ⟨hs1, hs2⟩ := pairwise_append_single hs
  have hr0 : st ≤ r.time := hst r (by simp)
  have ht : ((since st r : Nat) : Int) = r.time - st := by unfold since; omega
  -- the window loop
  have hidx : s.widx * w ≤ since st r := by
    rw [hi.widx]
    exact Nat.le_trans (Nat.div_mul_le_self _ _) (elapsed_le hs2)
  have hadv : advance s.w (r.time - s.start) ((r.time - s.start).toNat + 1) s.next s.widx =
      .ok ((since st r / w + 1) * w, since st r / w) := by
    rw [hi.win, hi.start, hi.next, ← ht]
    apply advance_spec hw
    · omega
    · exact hidx
    · have : w ≤ (s.widx + 1) * w := Nat.le_mul_of_pos_left _ (Nat.succ_pos _)
      simp only [Int.toNat_natCast]
      omega
    · omega
  have hwin : windowIdx s.w (r.time - s.start) = since st r / w := by
    unfold windowIdx
    rw [hi.win, hi.start, u32of_of (by omega) (by omega)]
    rfl
  have hi32 : i32 (r.time - s.start) = r.time - st := by rw [hi.start, i32_of (by omega) (by omega)]
  have hlook := hi.look r.id
  have hsum : ((p ++ [r]).map (·.size)).sum = (p.map (·.size)).sum + r.size := by simp
  unfold annotate
  simp only [hadv, Res.bind_ok, hwin, ne_eq, not_true_eq_false, if_false]
  cases hl : s.map.lookup r.id with
  | none =>
    rw [hlook] at hl
    have hnil := infoOf_none hl
    have hfirst : isFirst (p, r) := (requestsTo_nil p r.id).mp hnil
    have hprev : previous (p, r) = none := (isFirst_iff _).mp hfirst
    have hcre : creation (p, r) = r := by simp [creation, hnil]
    have hfw : firstInWindow w st (p, r) := fun q hq hid => absurd hid (hfirst q hq)
    refine ⟨_, congrArg Except.ok (Prod.ext ?_ rfl), ?_⟩
    · have hi32' : i32 (r.time - st) = r.time - st := i32_of (by omega) (by omega)
      simp [noteOf, hprev, hcre, hfirst, hfw, hi32', hi.start]
    · refine ⟨hi.win, hi.start, by rw [elapsed_append], rfl, by simp [hi.nReq], ?_, ?_, ?_, ?_⟩
      · show (s.sumReq + r.size) % two64 = _
        rw [hsum, hi.sumReq, Nat.mod_add_mod]
      · show (s.sumObj + r.size) % two64 = _
        rw [firstBytes_append, if_pos hfirst, hi.sumObj, Nat.mod_add_mod]
      · show List.map (fun (x : Nat × Info) => x.1) (s.map ++ [(r.id, _)]) = _
        rw [List.map_append, hi.keys, objects_append, if_neg]
        · rfl
        · rw [List.mem_map]
          rintro ⟨q, hq, e⟩
          exact hfirst q hq e
      · intro id
        show (s.map ++ [(r.id, _)]).lookup id = _
        rw [lookup_append_single, hi.look, infoOf_append]
        by_cases h : r.id = id
        · subst h
          rw [hl, if_pos rfl]
          have hf : freq p r.id = 0 := by rw [← length_requestsTo, hnil]; rfl
          simp [hcre, hf, hi.nReq, hi32]
        · rw [if_neg h]
          have : (id == r.id) = false := beq_false_of_ne (Ne.symm h)
          simp [this]
  | some i =>
    rw [hlook] at hl
    obtain ⟨f, q, hh, hq, rfl⟩ := infoOf_some hl
    have hqm := mem_requestsTo (List.mem_of_getLast? hq)
    have hqt := hs2 q.1 hqm.1
    have hq0 := hst q.1 (List.mem_append_left _ hqm.1)
    have hprev : previous (p, r) = some q := hq
    have hnf : ¬ isFirst (p, r) := by rw [isFirst_iff, hprev]; simp
    have hcre : creation (p, r) = f.1 := by simp [creation, hh]
    have hfw := firstInWindow_iff (w := w) (st := st) hs hq
    have hv : ¬ ((s.nReq + 1 : Nat) : Int) - (q.2 : Int) ≤ 0 := by rw [hi.nReq]; omega
    have hrt : ¬ r.time - s.start - (q.1.time - st) < 0 := by rw [hi.start]; omega
    have hwq : windowIdx s.w (q.1.time - st) = since st q.1 / w := by
      unfold windowIdx
      rw [hi.win, u32of_of (by omega) (by omega)]
      rfl
    simp only [if_neg hv, if_neg hrt]
    refine ⟨_, congrArg Except.ok (Prod.ext ?_ rfl), ?_⟩
    · simp only [noteOf, hprev, hcre, Option.map_some, Option.getD_some, Note.mk.injEq]
      refine ⟨by rw [hi.start], trivial, trivial, trivial, trivial, by rw [hi.nReq]; push_cast; rfl, by rw [hi.start]; omega, trivial, trivial, by simp [hnf], by simp [hnf], ?_⟩
      rw [hwq]
      simp only [ne_eq] at hfw
      simp only [hfw]
    · refine ⟨hi.win, hi.start, by rw [elapsed_append], rfl, by simp [hi.nReq], ?_, ?_, ?_, ?_⟩
      · show (s.sumReq + r.size) % two64 = _
        rw [hsum, hi.sumReq, Nat.mod_add_mod]
      · show s.sumObj = _
        rw [firstBytes_append, if_neg hnf, hi.sumObj, Nat.add_zero]
      · show (setInfo _ _ _).map (·.1) = _
        rw [keys_setInfo, hi.keys, objects_append, if_pos, List.append_nil]
        exact List.mem_map.mpr ⟨q.1, hqm.1, hqm.2.1⟩
      · intro id
        show (setInfo _ _ _).lookup id = _
        rw [lookup_setInfo, hi.look, hi.look, infoOf_append]
        by_cases h : r.id = id
        · subst h
          rw [if_pos rfl, if_pos rfl, hl]
          have hle : freq p r.id ≤ p.length := List.countP_le_length
          have hmod : (freq p r.id + 1) % two32 = freq p r.id + 1 := Nat.mod_eq_of_lt (by omega)
          simp [hcre, hi.nReq, hi32, hmod]
        · rw [if_neg (Ne.symm h), if_neg h]

/-- The whole pass. -/
theorem annotateAll_spec {w : Nat} {st : Int} (hw : 0 < w) :
    ∀ (l p : List Rec) (s : State), Inv w st p s →
      (p ++ l).Pairwise (fun a b => a.time ≤ b.time) → (∀ q ∈ p ++ l, st ≤ q.time) →
      (∀ q ∈ p ++ l, q.time - st + w ≤ 2147483647) → (p ++ l).length < two32 →
      ∃ s', annotateAll s l = .ok ((withPastFrom p l).map (noteOf w st), s') ∧ Inv w st (p ++ l) s' := by
  intro l
  induction l with
  | nil => intro p s hi _ _ _ _; exact ⟨s, rfl, by simpa using hi⟩
  | cons r l ih =>
    intro p s hi hs hst hsh hn
    have e : p ++ r :: l = (p ++ [r]) ++ l := by simp
    rw [e] at hs hst hsh hn ⊢
    have hlen : p.length + 1 < two32 := by
      simp only [List.length_append, List.length_cons, List.length_nil] at hn
      omega
    obtain ⟨s1, h1, hi1⟩ := annotate_spec hw hi (List.pairwise_append.mp hs).1
      (fun q hq => hst q (List.mem_append_left _ hq))
      (hsh r (List.mem_append_left _ (by simp))) hlen
    obtain ⟨s2, h2, hi2⟩ := ih (p ++ [r]) s1 hi1 hs hst hsh hn
    refine ⟨s2, ?_, hi2⟩
    unfold annotateAll
    rw [h1, Res.bind_ok, h2]
    rfl

theorem Inv.init {w : Nat} (st : Int) : Inv w st [] (State.init w st) := by
  refine ⟨rfl, rfl, by simp [State.init, elapsed], by simp [State.init], rfl, rfl, rfl, rfl, ?_⟩
  intro id; rfl

theorem good_bounds {w : Nat} {l : List Rec} (h : Good w l) :
    (∀ q ∈ l, start l ≤ q.time) ∧ (∀ q ∈ l, q.time ≤ finish l) := by
  have hs := h.sorted
  constructor
  · intro q hq
    cases l with
    | nil => simp at hq
    | cons a l =>
      rw [List.pairwise_cons] at hs
      rw [List.mem_cons] at hq
      rcases hq with rfl | hq
      · exact Int.le_refl _
      · exact hs.1 q hq
  · intro q hq
    cases l using List.reverseRecOn with
    | nil => simp at hq
    | append_singleton l a =>
      have hf : finish (l ++ [a]) = a.time := by simp [finish]
      rw [hf]
      rw [List.mem_append, List.mem_singleton] at hq
      rcases hq with hq | rfl
      · exact (pairwise_append_single hs).2 q hq
      · exact Int.le_refl _

/-- The pass on a good trace: every request is annotated as the trace says, and the final state is
exact. -/
theorem pass_spec {w warmup : Nat} {l : List Rec} (h : Good w l) (hw : warmup % w = 0) :
    ∃ s, pass w warmup l = .ok { notes := (withPast l).map (noteOf w (start l)), st := s, endTs := finish l } ∧
      Inv w (start l) l s := by
  obtain ⟨hb1, hb2⟩ := good_bounds h
  have hsh := h.short
  obtain ⟨s, h1, h2⟩ := annotateAll_spec h.window l [] (State.init w (start l)) (Inv.init _)
    (by simpa using h.sorted) (by simpa using hb1)
    (by intro q hq; have := hb2 q (by simpa using hq); omega) (by simpa [two32] using h.count)
  refine ⟨s, ?_, by simpa using h2⟩
  unfold pass
  rw [if_neg (Nat.pos_iff_ne_zero.mp h.window), if_neg (by simpa using hw)]
  have hfeed : feed l = l := if_neg h.nonempty
  have hstart : (l.headD blank).time = start l := by
    cases l with
    | nil => exact absurd rfl h.nonempty
    | cons a l => rfl
  have hfin : (l.getLastD blank).time = finish l := by
    cases l using List.reverseRecOn with
    | nil => exact absurd rfl h.nonempty
    | append_singleton l a => simp [finish]
  simp only [hfeed, hstart, hfin]
  rw [h1, Res.bind_ok]
  simp [withPast]

end Verif.Analyzer
