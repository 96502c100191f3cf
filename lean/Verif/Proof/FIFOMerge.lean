import Verif.Proof.CSim
import Verif.Proof.Sieve
import Verif.Algo.FIFOMerge
import Verif.Spec.Merge
import Mathlib.Algebra.Order.Field.Rat
import Mathlib.Tactic.Linarith
import Mathlib.Tactic.NormNum
import Mathlib.Data.List.Sort
/-!
# FIFO-Merge
-/

namespace Verif.FIFOMerge
open Verif
open _root_.Verif.Spec.Merge (Seen St Ranking ranks ahead window handAfter victims clock32)

def seen (o : Obj Meta) : Seen := ⟨o.id, o.size, o.mt.freq, o.mt.last, o.miscNext⟩

def ptrId : Ptr → Option ObjId
  | .to i => some i
  | _ => none

/-- the metric of an object -/
def rankOf (P : Params) (now d : Nat) (x : Seen) : Dbl :=
  match P.policy with
  | .frequency => Dbl.div P.R (.fin (P.R.rnd (10 ^ 6 * P.R.rnd (x.hits + P.R.rnd (((d % 1000 : Nat) : Rat) / 10000))))) x.size
  | .recency => Dbl.div P.R (Dbl.div P.R (.fin (10 ^ 12)) (now - x.last)) x.size
  | .belady => if x.next = -1 ∨ x.next = 9223372036854775807 then .fin (-1) else Dbl.div P.R (Dbl.div P.R (.fin (10 ^ 12)) (x.next - now)) x.size
  | .none => .nan

def nodes (l : List (Dbl × ObjId)) : List Node := l.map (fun e => (e.1, Ptr.to e.2))

def ranking (P : Params) : Ranking where
  V := Dbl
  draws := decide (P.policy = .frequency)
  rank := rankOf P
  order := fun l => (P.S.sort (nodes l)).filterMap (fun e => ptrId e.2)

abbrev lim (P : Params) : Nat := P.nExam - P.nKeep - 1

def pend (P : Params) (s : State) : List Node := (s.list.drop s.pos).take (lim P - s.pos)

def view (P : Params) (s : State) : St where
  queue := viewOf seen s.base s.q
  hand := ptrId s.next
  doomed := ((pend P s).map (·.2)).filterMap ptrId
  draws := s.picks

def qs (s : State) : QState Meta := ⟨s.base, s.q⟩

def NextOk (s : State) : Prop := s.next = .null ∨ ∃ id ∈ s.q, s.next = .to id

structure Inv (P : Params) (cs md : Nat) (s : State) : Prop where
  q : QInv cs md (qs s)
  next : NextOk s
  len : s.pos < P.nExam → s.list.length = P.nExam
  doom : ∃ ids : List ObjId, (pend P s).map (·.2) = ids.map Ptr.to ∧ ids.Nodup ∧ ∀ i ∈ ids, i ∈ s.q ∧ s.next ≠ .to i

variable {P : Params} {cs md : Nat} {s : State}

theorem ptrIds (ids : List ObjId) : (ids.map Ptr.to).filterMap ptrId = ids := by
  induction ids with
  | nil => rfl
  | cons a l ih => simp [ptrId, ih]

theorem inv_init (P : Params) (cs md : Nat) (adm : Adm) (picks : List Nat) (hP : P.nExam ≤ 2147483647) : Inv P cs md (init cs md adm picks) :=
  ⟨QInv.init cs md adm, .inl rfl, fun h => by simp [init] at h; omega, [], by simp [pend, init], by simp, by simp⟩

/-! ### Views -/

def Full (b : Base Meta) (l : List ObjId) : Prop := ∀ id ∈ l, ∃ o, b.lookup id = some o

theorem view_ids {b : Base Meta} {l : List ObjId} (h : Full b l) : (viewOf seen b l).map Seen.id = l := by
  induction l with
  | nil => rfl
  | cons a l ih =>
    obtain ⟨o, ho⟩ := h a (by simp)
    rw [viewOf_cons ho, List.map_cons, ih (fun i hi => h i (by simp [hi]))]
    rw [show (seen o).id = o.id from rfl, (lookup_some_mem ho).2]

theorem view_len {b : Base Meta} {l : List ObjId} (h : Full b l) : (viewOf seen b l).length = l.length := by
  conv => rhs; rw [← view_ids h]
  rw [List.length_map]

theorem view_take {b : Base Meta} {l : List ObjId} (h : Full b l) (n : Nat) : (viewOf seen b l).take n = viewOf seen b (l.take n) := by
  induction l generalizing n with
  | nil => simp [viewOf_nil]
  | cons a l ih =>
    obtain ⟨o, ho⟩ := h a (by simp)
    cases n with
    | zero => simp [viewOf_nil]
    | succ n =>
      rw [viewOf_cons ho, List.take_succ_cons, List.take_succ_cons, viewOf_cons ho, ih (fun i hi => h i (by simp [hi]))]

theorem Full.q (h : QInv cs md (qs s)) : Full s.base s.q := fun id hid => (h.mem_iff id).1 hid

theorem Full.rev (h : QInv cs md (qs s)) : Full s.base s.q.reverse := fun id hid => (h.mem_iff id).1 (List.mem_reverse.1 hid)

/-! ### Examining objects -/

def hp (l : List ObjId) : Ptr := match l.head? with | some p => .to p | none => .null

theorem hp_id (l : List ObjId) : ptrId (hp l) = l.head? := by
  unfold hp; cases l.head? <;> rfl

theorem retain_ok (hP : P.policy ≠ .none) (now : Nat) (picks : List Nat) (o : Obj Meta) :
    retainMetric P now picks o = .ok (rankOf P now (picks.headD 0) (seen o), if decide (P.policy = .frequency) then picks.tail else picks) := by
  unfold retainMetric rankOf
  cases h : P.policy with
  | frequency => simp [freqMetric, seen]
  | recency => simp [recencyMetric, seen]
  | belady => simp [beladyMetric, seen]; rfl
  | none => exact absurd h hP

theorem exam_straight (hP : P.policy ≠ .none) (h : QInv cs md (qs s)) :
    ∀ n L A loops picks, s.q.reverse = A ++ L → n ≤ L.length →
      exam P s n (hp L) loops picks = .ok (nodes (ranks (ranking P) s.base.nReq (viewOf seen s.base (L.take n)) picks).1, hp (L.drop n),
        (ranks (ranking P) s.base.nReq (viewOf seen s.base (L.take n)) picks).2) := by
  intro n
  induction n with
  | zero => intro L A loops picks _ _; simp [exam, viewOf_nil, ranks, nodes]; rfl
  | succ n ih =>
    intro L A loops picks hq hn
    cases L with
    | nil => simp at hn
    | cons id B =>
      obtain ⟨o, ho⟩ := Full.rev h id (by rw [hq]; simp)
      have hprev : Sieve.prevOf s.q id = B.head? := Sieve.prevOf_rev hq h.nodup
      have := ih B (A ++ [id]) loops (if decide (P.policy = .frequency) then picks.tail else picks) (by simp [hq]) (by simpa using hn)
      rw [show hp (id :: B) = .to id from rfl]
      unfold exam
      simp only [ho, retain_ok hP, Res.bind_ok]
      rw [hprev]
      change (exam P s n (hp B) loops _ >>= _) = _
      rw [this, Res.bind_ok]
      rw [List.take_succ_cons, viewOf_cons ho, List.drop_succ_cons]
      simp only [ranks, nodes, List.map_cons]
      rw [show (seen o).id = id from (lookup_some_mem ho).2]
      rfl

theorem exam_wrap (hP : P.policy ≠ .none) (h : QInv cs md (qs s)) :
    ∀ L n A picks, s.q.reverse = A ++ L → L.length < n → n - L.length ≤ s.q.length →
      exam P s n (hp L) 0 picks = .ok (nodes (ranks (ranking P) s.base.nReq (viewOf seen s.base (L ++ s.q.reverse.take (n - L.length))) picks).1,
        hp (s.q.reverse.drop (n - L.length)),
        (ranks (ranking P) s.base.nReq (viewOf seen s.base (L ++ s.q.reverse.take (n - L.length))) picks).2) := by
  intro L
  induction L with
  | nil =>
    intro n A picks hq hn hle
    simp only [List.length_nil, Nat.sub_zero] at hn hle ⊢
    cases n with
    | zero => omega
    | succ n =>
      have hne : s.q.reverse ≠ [] := by intro e; simp at e; simp [e] at hle
      obtain ⟨t, T, hT⟩ := List.exists_cons_of_ne_nil hne
      have htail : qTail s.q = .ok t := by
        have : s.q = T.reverse ++ [t] := by
          have := congrArg List.reverse hT; simpa using this
        simp [qTail, this]
      have hst := exam_straight hP h (n + 1) s.q.reverse [] 2 picks (by simp) (by simpa using hle)
      rw [hT] at hst ⊢
      rw [show hp (t :: T) = .to t from rfl] at hst
      rw [show hp [] = .null from rfl]
      unfold exam at hst ⊢
      simp only [Nat.zero_add, show (1 : Nat) ≤ 2 by omega, if_true, htail, Res.bind_ok]
      exact hst
  | cons id B ih =>
    intro n A picks hq hn hle
    cases n with
    | zero => simp at hn
    | succ n =>
      simp only [List.length_cons, Nat.add_lt_add_iff_right, Nat.add_sub_add_right] at hn hle ⊢
      obtain ⟨o, ho⟩ := Full.rev h id (by rw [hq]; simp)
      have hprev : Sieve.prevOf s.q id = B.head? := Sieve.prevOf_rev hq h.nodup
      have := ih n (A ++ [id]) (if decide (P.policy = .frequency) then picks.tail else picks) (by simp [hq]) hn hle
      rw [show hp (id :: B) = .to id from rfl]
      unfold exam
      simp only [ho, retain_ok hP, Res.bind_ok]
      rw [hprev]
      change (exam P s n (hp B) 0 _ >>= _) = _
      rw [this, Res.bind_ok]
      rw [List.cons_append, viewOf_cons ho]
      simp only [ranks, nodes, List.map_cons]
      rw [show (seen o).id = id from (lookup_some_mem ho).2]
      rfl

/-- The pointer splits the queue. -/
theorem next_split (h : QInv cs md (qs s)) (hn : NextOk s) :
    ∃ A L, s.q.reverse = A ++ L ∧ ahead (view P s) = viewOf seen s.base L ∧ ((s.next = hp L ∧ (s.next ≠ .null)) ∨ (s.next = .null ∧ L = s.q.reverse)) := by
  rcases hn with hn | ⟨id, hid, hn⟩
  · refine ⟨[], s.q.reverse, by simp, ?_, .inr ⟨hn, rfl⟩⟩
    simp [ahead, view, hn, ptrId, viewOf_reverse]
  · obtain ⟨A, B, hAB⟩ := List.append_of_mem (List.mem_reverse.2 hid)
    obtain ⟨hnA, hnB⟩ := Sieve.split_notMem hAB h.nodup
    refine ⟨A, id :: B, hAB, ?_, .inl ⟨by rw [hn]; rfl, by rw [hn]; simp⟩⟩
    simp only [ahead, view, hn, ptrId]
    rw [← viewOf_reverse, hAB, viewOf_append]
    obtain ⟨o, ho⟩ := Full.rev h id (by rw [hAB]; simp)
    have hA : ∀ x ∈ viewOf seen s.base A, decide (x.id ≠ id) = true := by
      intro x hx
      have : x.id ∈ (viewOf seen s.base A).map Seen.id := List.mem_map_of_mem hx
      rw [view_ids (fun i hi => Full.rev h i (by rw [hAB]; simp [hi]))] at this
      simp only [decide_eq_true_eq]
      rintro rfl; exact hnA this
    rw [List.dropWhile_append_of_pos hA, viewOf_cons ho, List.dropWhile_cons_of_neg]
    simp [seen, (lookup_some_mem ho).2]

theorem headAt {α : Type} (l : List α) (n : Nat) : (l.drop n).head? = l[n]? := by
  rw [List.head?_drop]

/-- One examination: the window, the hand and the objects met. -/
theorem exam_spec (hP : P.policy ≠ .none) (h : QInv cs md (qs s)) (hn : NextOk s) (hlt : P.nExam < s.q.length) :
    ∃ W p, exam P s P.nExam s.next 0 s.picks = .ok (nodes (ranks (ranking P) s.base.nReq (viewOf seen s.base W) s.picks).1, p,
        (ranks (ranking P) s.base.nReq (viewOf seen s.base W) s.picks).2) ∧
      window P.nExam (view P s) = viewOf seen s.base W ∧ ptrId p = handAfter P.nExam (view P s) ∧ (∀ i ∈ W, i ∈ s.q) ∧ W.Nodup ∧ W.length = P.nExam ∧
      (p = .null ∨ ∃ id ∈ s.q, p = .to id ∧ id ∉ W) := by
  obtain ⟨A, L, hq, ha, hcase⟩ := next_split (P := P) h hn
  have hnd : (A ++ L).Nodup := by rw [← hq]; exact List.nodup_reverse.2 h.nodup
  have hlen : A.length + L.length = s.q.length := by rw [← List.length_append, ← hq, List.length_reverse]
  have hFL : Full s.base L := fun i hi => Full.rev h i (by rw [hq]; simp [hi])
  have hFq := Full.rev h
  have hrev : (view P s).queue.reverse = viewOf seen s.base s.q.reverse := by simp only [view]; rw [viewOf_reverse]
  have hcyc : ahead (view P s) ++ (view P s).queue.reverse = viewOf seen s.base (L ++ s.q.reverse) := by rw [ha, hrev, viewOf_append]
  have hF : Full s.base (L ++ s.q.reverse) := by
    intro i hi
    rcases List.mem_append.1 hi with hi | hi
    · exact hFL i hi
    · exact hFq i hi
  have hwin : window P.nExam (view P s) = viewOf seen s.base ((L ++ s.q.reverse).take P.nExam) := by
    unfold window; rw [hcyc, view_take hF]
  have hhand : handAfter P.nExam (view P s) = if L.length = P.nExam then none else (L ++ s.q.reverse)[P.nExam]? := by
    unfold handAfter
    rw [hcyc, ha, view_len hFL]
    split
    · rfl
    · rw [← List.getElem?_map, view_ids hF]
  by_cases hle : P.nExam ≤ L.length
  · have hst := exam_straight hP h P.nExam L A 0 s.picks hq hle
    have he : exam P s P.nExam s.next 0 s.picks = exam P s P.nExam (hp L) 0 s.picks := by
      rcases hcase with ⟨h1, _⟩ | ⟨h1, h2⟩
      · rw [h1]
      · -- the pointer is NULL: the first step goes to the tail
        have hw := exam_wrap hP h [] P.nExam s.q.reverse s.picks (by simp) (by simpa using P.pos) (by simp; omega)
        rw [h1, show Ptr.null = hp [] from rfl, hw, h2]
        have := exam_straight hP h P.nExam s.q.reverse [] 0 s.picks (by simp) (by simp; omega)
        rw [this]; simp
    have htk : (L ++ s.q.reverse).take P.nExam = L.take P.nExam := List.take_append_of_le_length hle
    have hLn : L.Nodup := (List.nodup_append.1 hnd).2.1
    refine ⟨L.take P.nExam, hp (L.drop P.nExam), he.trans hst, by rw [hwin, htk], ?_, ?_, hLn.sublist (List.take_sublist _ _), by simp; omega, ?_⟩
    · rw [hp_id, hhand, headAt]
      by_cases e : L.length = P.nExam
      · rw [if_pos e, List.getElem?_eq_none (by omega)]
      · rw [if_neg e, List.getElem?_append_left (by omega)]
    · intro i hi
      rw [← List.mem_reverse, hq]; simp [List.mem_of_mem_take hi]
    · unfold hp
      cases hd : (L.drop P.nExam).head? with
      | none => exact .inl rfl
      | some x =>
        right
        have hx : x ∈ L.drop P.nExam := List.mem_of_mem_head? hd
        refine ⟨x, by rw [← List.mem_reverse, hq]; simp [List.mem_of_mem_drop hx], rfl, fun hx' => ?_⟩
        rw [← List.take_append_drop P.nExam L, List.nodup_append] at hLn
        exact hLn.2.2 x hx' x hx rfl
  · have hgt : L.length < P.nExam := by omega
    have hne : s.next ≠ .null → s.next = hp L := fun hx => by
      rcases hcase with ⟨h1, _⟩ | ⟨h1, _⟩
      · exact h1
      · exact absurd h1 hx
    have hnn : s.next = hp L := by
      rcases hcase with ⟨h1, _⟩ | ⟨_, h2⟩
      · exact h1
      · rw [h2, List.length_reverse] at hgt; omega
    have hw := exam_wrap hP h L P.nExam A s.picks hq hgt (by omega)
    have hlA : P.nExam - L.length < A.length := by omega
    have htk : (L ++ s.q.reverse).take P.nExam = L ++ s.q.reverse.take (P.nExam - L.length) := by
      rw [List.take_append, List.take_of_length_le (by omega)]
    have htA : s.q.reverse.take (P.nExam - L.length) = A.take (P.nExam - L.length) := by
      rw [hq]; exact List.take_append_of_le_length (by omega)
    obtain ⟨hA, hL, hAL⟩ := List.nodup_append.1 hnd
    refine ⟨L ++ s.q.reverse.take (P.nExam - L.length), hp (s.q.reverse.drop (P.nExam - L.length)), by rw [hnn, hw], by rw [hwin, htk], ?_, ?_, ?_, ?_, ?_⟩
    · rw [hp_id, hhand, headAt, if_neg (by omega), List.getElem?_append_right (by omega)]
    · intro i hi
      rcases List.mem_append.1 hi with hi | hi
      · rw [← List.mem_reverse, hq]; simp [hi]
      · exact List.mem_reverse.1 (List.mem_of_mem_take hi)
    · rw [htA, List.nodup_append]
      exact ⟨hL, hA.sublist (List.take_sublist _ _), fun a ha b hb e => hAL b (List.mem_of_mem_take hb) a ha e.symm⟩
    · simp; omega
    · right
      have hdr : s.q.reverse.drop (P.nExam - L.length) = A.drop (P.nExam - L.length) ++ L := by
        rw [hq, List.drop_append_of_le_length (by omega)]
      have hne : A.drop (P.nExam - L.length) ≠ [] := by intro e; have := congrArg List.length e; simp at this; omega
      obtain ⟨x, T, hT⟩ := List.exists_cons_of_ne_nil hne
      have hx : x ∈ A.drop (P.nExam - L.length) := by rw [hT]; simp
      refine ⟨x, by rw [← List.mem_reverse, hq]; simp [List.mem_of_mem_drop hx], by rw [hdr, hT]; rfl, ?_⟩
      rw [htA]
      intro hm
      rcases List.mem_append.1 hm with hm | hm
      · exact hAL x (List.mem_of_mem_drop hx) x hm rfl
      · rw [← List.take_append_drop (P.nExam - L.length) A, List.nodup_append] at hA
        exact hA.2.2 x hm x hx rfl

/-! ### Eviction -/

theorem drop_spec (h : QInv cs md (qs s)) {v : ObjId} (hv : v ∈ s.q) :
    ∃ s' n, dropObj s v = .ok s' ∧ QInv cs md (qs s') ∧ s.base.cached.Perm ((v, n) :: s'.base.cached) ∧ s'.q = s.q.erase v ∧
      s'.next = s.next.drop v ∧ s'.list = s.list.map (fun e => (e.1, e.2.drop v)) ∧ s'.pos = s.pos ∧ s'.picks = s.picks ∧
      s'.base.adm = s.base.adm ∧ s'.base.nReq = s.base.nReq ∧
      viewOf seen s'.base s'.q = Spec.Merge.drop (viewOf seen s.base s.q) v := by
  obtain ⟨o, ho⟩ := (h.mem_iff v).1 hv
  have ho' : s.base.lookup v = some o := ho
  obtain ⟨b', h1, h2, h3, h4, h5, h6, h7⟩ := h.base.remove ho
  have h1' : s.base.removeObjBase v = .ok b' := h1
  have hid := (lookup_some_mem ho').2
  have hperm := h.erase_perm hid h4
  refine ⟨{ s with base := b', q := s.q.erase v, next := s.next.drop v, list := s.list.map (fun e => (e.1, e.2.drop v)) }, o.size, by simp [dropObj, qRemove, hv, Base.evictBase, h1'], ⟨h2, hperm⟩, by rw [hid] at h5; exact h5, rfl, rfl, rfl, rfl, rfl, h6, h7, ?_⟩
  simp only
  rw [erase_eq_filter (q := s.q) h.nodup, viewOf_erase h3 (by simp)]
  unfold Spec.Merge.drop
  exact viewOf_filter _ _ (fun o _ => rfl)

theorem drop_ne {p : Ptr} {v : ObjId} (h : p ≠ .to v) : p.drop v = p := by
  cases p with
  | «to» i =>
    have : i ≠ v := fun e => h (by rw [e])
    simp [Ptr.drop, this]
  | null => rfl
  | freed => rfl

theorem drops_ne {l : List Node} {ids : List ObjId} {v : ObjId} (h : l.map (·.2) = ids.map Ptr.to) (hv : v ∉ ids) :
    (l.map (fun e => (e.1, e.2.drop v))).map (·.2) = ids.map Ptr.to := by
  rw [List.map_map, ← h]
  apply List.map_congr_left
  intro e he
  simp only [Function.comp]
  apply drop_ne
  intro e2
  have : e.2 ∈ ids.map Ptr.to := by rw [← h]; exact List.mem_map_of_mem he
  rw [e2] at this
  simp at this
  exact hv this

theorem next_drop {t s' : State} {v : ObjId} (hn : NextOk t) (hne : t.next ≠ .to v) (hq : s'.q = t.q.erase v) (hx : s'.next = t.next.drop v) : NextOk s' ∧ s'.next = t.next := by
  have e : s'.next = t.next := by rw [hx, drop_ne hne]
  refine ⟨?_, e⟩
  rcases hn with hn | ⟨i, hi, hn⟩
  · exact .inl (by rw [e, hn])
  · refine .inr ⟨i, ?_, by rw [e, hn]⟩
    rw [hq]
    refine (List.mem_erase_of_ne ?_).2 hi
    rintro rfl; exact hne hn

theorem view_dropLast {b : Base Meta} {q l : List ObjId} {t : ObjId} (hF : Full b q) (hn : q.Nodup) (hq : q = l ++ [t]) :
    Spec.Merge.drop (viewOf seen b q) t = (viewOf seen b q).dropLast := by
  subst hq
  obtain ⟨o, ho⟩ := hF t (by simp)
  rw [viewOf_append, viewOf_cons ho, viewOf_nil, List.dropLast_concat]
  unfold Spec.Merge.drop
  rw [List.filter_append, List.filter_cons_of_neg (by simp [seen, (lookup_some_mem ho).2]), List.filter_nil, List.append_nil, List.filter_eq_self]
  intro x hx
  have : x.id ∈ (viewOf seen b l).map Seen.id := List.mem_map_of_mem hx
  rw [view_ids (fun i hi => hF i (by simp [hi]))] at this
  simp only [decide_eq_true_eq]
  rintro e
  rw [List.nodup_append] at hn
  exact hn.2.2 _ this t (by simp) e

theorem nodes_to (l : List (Dbl × ObjId)) : (nodes l).map (·.2) = (l.map (·.2)).map Ptr.to := by
  simp [nodes, Function.comp_def]

theorem ranks_ids (K : Ranking) (now : Nat) (l : List Seen) (d : List Nat) : ((ranks K now l d).1.map (·.2)) = l.map Seen.id := by
  induction l generalizing d with
  | nil => rfl
  | cons x l ih => simp only [ranks, List.map_cons, ih]

/-- Nodes whose pointers are all valid. -/
theorem nodes_ids {l : List Node} (h : ∀ e ∈ l, ∃ i, e.2 = Ptr.to i) : l.map (·.2) = (l.filterMap (fun e => ptrId e.2)).map Ptr.to := by
  induction l with
  | nil => rfl
  | cons e l ih =>
    obtain ⟨i, hi⟩ := h e (by simp)
    rw [List.map_cons, ih (fun x hx => h x (by simp [hx])), List.filterMap_cons, hi]
    rfl

theorem len_q (h : QInv cs md (qs s)) : s.q.length = s.base.tbl.length := by
  have := h.q.length_eq
  rw [List.length_map] at this; exact this

theorem pend_nil {t : State} (h : lim P - t.pos = 0) : pend P t = [] := by
  simp [pend, h]

theorem tail_spec (h : QInv cs md (qs s)) (hne : s.base.tbl ≠ []) :
    ∃ l t, s.q = l ++ [t] ∧ qTail s.q = .ok t := by
  have : s.q ≠ [] := by
    intro e
    have h1 := len_q h
    rw [e] at h1
    exact hne (List.length_eq_zero_iff.1 h1.symm)
  rcases List.eq_nil_or_concat s.q with e | ⟨l, t, e⟩
  · exact absurd e this
  · rw [List.concat_eq_append] at e
    exact ⟨l, t, e, by simp [qTail, e]⟩

/-- Nothing is doomed. -/
theorem evictMore_spec (hP : P.policy ≠ .none) (h : QInv cs md (qs s)) (hn : NextOk s) (hlen : s.pos < P.nExam → s.list.length = P.nExam)
    (h0 : lim P - s.pos = 0) (hne : s.base.tbl ≠ []) :
    ∃ s' v, evictMore P s = .ok s' ∧ Inv P cs md s' ∧ s.base.cached.Perm (v :: s'.base.cached) ∧
      view P s' = Spec.Merge.evict (ranking P) P.nExam P.nKeep s.base.nReq { view P s with doomed := [] } ∧
      s'.base.adm = s.base.adm ∧ s'.base.nReq = s.base.nReq := by
  have hN : s.base.nObj = s.q.length := by rw [len_q h]; exact h.base.inv.nObj_eq
  have hvl : (view P s).queue.length = s.q.length := view_len (Full.q h)
  have hlp : 0 < P.nExam := P.pos
  unfold evictMore Spec.Merge.evict
  simp only
  rw [hvl]
  by_cases hle : s.q.length ≤ P.nExam
  · rw [if_pos (by omega), if_pos hle]
    obtain ⟨l, t, hq, ht⟩ := tail_spec h hne
    obtain ⟨s', n, k1, k2, k3, k4, k5, k6, k7, k8, k9, k10, k11⟩ := drop_spec (s := { s with next := .null }) (v := t) h (by simp [hq])
    refine ⟨s', _, by simp [ht, k1], ⟨k2, .inl k5, ?_, [], ?_, by simp, by simp⟩, k3, ?_, k9, k10⟩
    · rw [k7, k6]; simpa using hlen
    · rw [pend_nil (by rw [k7]; exact h0)]; rfl
    · have e1 : (view P s').doomed = [] := by
        simp only [view]; rw [pend_nil (by rw [k7]; exact h0)]; rfl
      have e2 : (view P s').queue = (view P s).queue.dropLast := by
        simp only [view]; rw [k11]; exact view_dropLast (Full.q h) h.nodup hq
      have e3 : (view P s').hand = none := by simp only [view]; rw [k5]; rfl
      have e4 : (view P s').draws = s.picks := k8
      cases hv : view P s' with
      | mk a b c d =>
        rw [hv] at e1 e2 e3 e4
        simp only at e1 e2 e3 e4
        subst e1 e2 e3 e4
        rfl
  · rw [if_neg (by omega), if_neg hle]
    obtain ⟨W, p, k1, k2, k3, k4, k5, k6, k7⟩ := exam_spec hP h hn (by omega)
    rw [k1, Res.bind_ok]
    simp only
    have hperm := P.S.perm (nodes (ranks (ranking P) s.base.nReq (viewOf seen s.base W) s.picks).1)
    have hwin : window P.nExam { view P s with doomed := [] } = viewOf seen s.base W := k2
    have hhand : handAfter P.nExam { view P s with doomed := [] } = ptrId p := k3.symm
    have hFW : Full s.base W := fun i hi => Full.q h i (k4 i hi)
    have hids : (ranks (ranking P) s.base.nReq (viewOf seen s.base W) s.picks).1.map (·.2) = W := by rw [ranks_ids, view_ids hFW]
    have hvict : victims (ranking P) P.nExam P.nKeep s.base.nReq { view P s with doomed := [] } =
        ((P.S.sort (nodes (ranks (ranking P) s.base.nReq (viewOf seen s.base W) s.picks).1)).filterMap (fun e => ptrId e.2)).take (max 1 (P.nExam - P.nKeep - 1)) := by
      unfold victims; rw [hwin]; rfl
    rw [hvict, hwin, hhand]
    rw [show (view P s).draws = s.picks from rfl]
    have hall : ∀ e ∈ P.S.sort (nodes (ranks (ranking P) s.base.nReq (viewOf seen s.base W) s.picks).1), ∃ i, e.2 = Ptr.to i := by
      intro e he
      have := hperm.subset he
      obtain ⟨x, _, hx⟩ := List.mem_map.1 this
      exact ⟨x.2, by rw [← hx]⟩
    have hsnd : ((P.S.sort (nodes (ranks (ranking P) s.base.nReq (viewOf seen s.base W) s.picks).1)).map (·.2)).Perm (W.map Ptr.to) := by
      exact (hperm.map (·.2)).trans (List.Perm.of_eq ((nodes_to _).trans (congrArg (List.map Ptr.to) hids)))
    generalize P.S.sort (nodes (ranks (ranking P) s.base.nReq (viewOf seen s.base W) s.picks).1) = S at hall hsnd
    generalize (ranks (ranking P) s.base.nReq (viewOf seen s.base W) s.picks).2 = pk
    have hSl : S.length = P.nExam := by have := hsnd.length_eq; simp at this; omega
    rw [nodes_ids hall] at hsnd
    have hX : (S.filterMap (fun e => ptrId e.2)).Perm W := by
      have := hsnd.filterMap ptrId
      rw [ptrIds, ptrIds] at this; exact this
    cases S with
    | nil => simp at hSl; omega
    | cons e l =>
      obtain ⟨v, hev⟩ := hall e (by simp)
      have hfm : (e :: l).filterMap (fun e => ptrId e.2) = v :: l.filterMap (fun e => ptrId e.2) := by rw [List.filterMap_cons, hev]; rfl
      have hl := nodes_ids (fun x hx => hall x (by simp [hx]) : ∀ x ∈ l, ∃ i, x.2 = Ptr.to i)
      rw [hfm] at hX ⊢
      generalize l.filterMap (fun e => ptrId e.2) = vs at hl hX ⊢
      have hXn : (v :: vs).Nodup := hX.nodup_iff.2 k5
      rw [List.nodup_cons] at hXn
      have hvq : v ∈ s.q := k4 v (hX.subset (by simp))
      have htk : (v :: vs).take (max 1 (P.nExam - P.nKeep - 1)) = v :: vs.take (lim P - 1) := by
        rw [show max 1 (P.nExam - P.nKeep - 1) = (lim P - 1) + 1 by unfold lim; omega, List.take_succ_cons]
      rw [htk]
      simp only [hev, dropPtr]
      have hpv : p ≠ .to v := by
        rcases k7 with k7 | ⟨i, _, k7, k8⟩
        · rw [k7]; simp
        · rw [k7]; simp only [ne_eq, Ptr.to.injEq]; rintro rfl; exact k8 (hX.subset (by simp))
      have hnext : NextOk { s with next := p, list := e :: l, pos := 1, picks := pk } := by
        rcases k7 with k7 | ⟨i, hi, k7, _⟩
        · exact .inl k7
        · exact .inr ⟨i, hi, k7⟩
      obtain ⟨s', n, j1, j2, j3, j4, j5, j6, j7, j8, j9, j10, j11⟩ :=
        drop_spec (s := { s with next := p, list := e :: l, pos := 1, picks := pk }) (v := v) h hvq
      obtain ⟨n1, n2⟩ := next_drop hnext hpv j4 j5
      have hpend : (pend P s').map (·.2) = (vs.take (lim P - 1)).map Ptr.to := by
        unfold pend
        rw [j6, j7]
        simp only [List.map_cons, List.drop_succ_cons, List.drop_zero]
        rw [List.map_take, drops_ne hl hXn.1, List.map_take]
      refine ⟨s', _, j1, ⟨j2, n1, ?_, vs.take (lim P - 1), hpend, hXn.2.sublist (List.take_sublist _ _), ?_⟩, j3, ?_, j9, j10⟩
      · intro _; rw [j6]; simpa using hSl
      · intro i hi
        have hi' : i ∈ v :: vs := List.mem_cons_of_mem _ (List.mem_of_mem_take hi)
        refine ⟨?_, ?_⟩
        · rw [j4]
          refine (List.mem_erase_of_ne ?_).2 (k4 i (hX.subset hi'))
          rintro rfl; exact hXn.1 (List.mem_of_mem_take hi)
        · rw [n2]
          rcases k7 with k7 | ⟨j, _, k7, k8⟩
          · simp only [k7]; simp
          · simp only [k7, ne_eq, Ptr.to.injEq]; rintro rfl; exact k8 (hX.subset hi')
      · unfold view
        rw [hpend, ptrIds, j11, n2, j8]

theorem evict_spec (hP : P.policy ≠ .none) (h : Inv P cs md s) (hne : s.base.tbl ≠ []) :
    ∃ s' v, evict P s = .ok s' ∧ Inv P cs md s' ∧ s.base.cached.Perm (v :: s'.base.cached) ∧
      view P s' = Spec.Merge.evict (ranking P) P.nExam P.nKeep s.base.nReq (view P s) ∧
      s'.base.adm = s.base.adm ∧ s'.base.nReq = s.base.nReq := by
  have hlim : lim P ≤ P.nExam := by unfold lim; omega
  have hmore : lim P - s.pos = 0 → view P s = { view P s with doomed := [] } := by
    intro h0
    unfold view
    rw [pend_nil h0]; rfl
  unfold evict
  by_cases hpos : s.pos < P.nExam
  · rw [if_pos hpos]
    have hl := h.len hpos
    have hget : s.list[s.pos]? = some s.list[s.pos] := List.getElem?_eq_getElem (by omega)
    rw [hget]
    simp only
    by_cases hk : s.pos + 1 < P.nExam - P.nKeep
    · rw [if_pos hk]
      have hp : pend P s = s.list[s.pos] :: (s.list.drop (s.pos + 1)).take (lim P - (s.pos + 1)) := by
        unfold pend
        rw [List.drop_eq_getElem_cons (by omega), show lim P - s.pos = (lim P - (s.pos + 1)) + 1 by unfold lim; omega, List.take_succ_cons]
      obtain ⟨ids, hids, hnd, hmem⟩ := h.doom
      rw [hp, List.map_cons] at hids
      cases ids with
      | nil => simp at hids
      | cons v vs =>
        rw [List.map_cons, List.cons.injEq] at hids
        obtain ⟨hv, hvs⟩ := hids
        rw [List.nodup_cons] at hnd
        rw [hv]
        simp only [dropPtr]
        obtain ⟨s', n, j1, j2, j3, j4, j5, j6, j7, j8, j9, j10, j11⟩ :=
          drop_spec (s := { s with pos := s.pos + 1 }) (v := v) h.q (hmem v (by simp)).1
        obtain ⟨n1, n2⟩ := next_drop (t := { s with pos := s.pos + 1 }) h.next (hmem v (by simp)).2 j4 j5
        have hpend : (pend P s').map (·.2) = vs.map Ptr.to := by
          unfold pend
          rw [j6, j7]
          simp only [← List.map_drop, ← List.map_take]
          exact drops_ne hvs hnd.1
        refine ⟨s', _, j1, ⟨j2, n1, ?_, vs, hpend, hnd.2, ?_⟩, j3, ?_, j9, j10⟩
        · rw [j6, j7]; intro _; simpa using hl
        · intro i hi
          refine ⟨?_, ?_⟩
          · rw [j4]
            refine (List.mem_erase_of_ne ?_).2 (hmem i (by simp [hi])).1
            rintro rfl; exact hnd.1 hi
          · rw [n2]; exact (hmem i (by simp [hi])).2
        · have hd : (view P s).doomed = v :: vs := by
            simp only [view]; rw [hp, List.map_cons, hv, hvs, ← List.map_cons, ptrIds]
          unfold Spec.Merge.evict
          rw [hd]
          simp only
          unfold view
          rw [hpend, ptrIds, j11, n2, j8]
    · rw [if_neg hk]
      have h0 : lim P - s.pos = 0 := by unfold lim; omega
      obtain ⟨s', v, j1, j2, j3, j4, j5, j6⟩ := evictMore_spec (s := { s with pos := s.pos + 1 }) hP h.q h.next (fun _ => hl) (by simp only; omega) hne
      refine ⟨s', v, j1, j2, j3, ?_, j5, j6⟩
      rw [hmore h0]
      exact j4
  · rw [if_neg hpos]
    have h0 : lim P - s.pos = 0 := by omega
    obtain ⟨s', v, j1, j2, j3, j4, j5, j6⟩ := evictMore_spec hP h.q h.next h.len h0 hne
    exact ⟨s', v, j1, j2, j3, by rw [hmore h0]; exact j4, j5, j6⟩

/-! ### Hits and insertions -/

theorem find_false (s : State) (r : Req) : find s r false = .ok ((s.base.lookup r.id).isSome, s) := by
  unfold find
  rw [findBase_false]
  cases h : s.base.lookup r.id <;> simp

theorem stamp_eq (n : Nat) : stamp n = clock32 n := by unfold stamp clock32; rfl

def hit (now : Nat) : Obj Meta → Obj Meta := fun o => { o with mt := ⟨o.mt.freq + 1, stamp now⟩ }

theorem find_hit {r : Req} {o : Obj Meta} (ho : s.base.lookup r.id = some o) :
    find s r true = .ok (true, { s with base := (s.base.modify r.id (touch r)).modify r.id (hit s.base.nReq) }) := by
  have e : (touch r o).id = r.id := (lookup_some_mem ho).2
  simp [find, findBase_hit ho, e]; rfl

theorem find_miss {r : Req} (ho : s.base.lookup r.id = none) : find s r true = .ok (false, s) := by
  simp [find, findBase_miss ho]

theorem Inv.base {b : Base Meta} (h : Inv P cs md s) (hb : QInv cs md ⟨b, s.q⟩) : Inv P cs md { s with base := b } :=
  ⟨hb, h.next, h.len, h.doom⟩

theorem hit_inv (h : Inv P cs md s) (r : Req) : Inv P cs md { s with base := (s.base.modify r.id (touch r)).modify r.id (hit s.base.nReq) } :=
  h.base ((h.q.touchOnly r.id (touch r) (fun _ => rfl) (fun _ => rfl)).touchOnly r.id (hit s.base.nReq) (fun _ => rfl) (fun _ => rfl))

theorem hit_view (r : Req) (q : List ObjId) :
    viewOf seen ((s.base.modify r.id (touch r)).modify r.id (hit s.base.nReq)) q =
      (viewOf seen s.base q).map (fun x => if x.id = r.id then { x with hits := x.hits + 1, last := clock32 s.base.nReq, next := r.next } else x) := by
  rw [viewOf_modify r.id (hit s.base.nReq) (fun _ => rfl) (fun x => if x.id = r.id then { x with hits := x.hits + 1, last := clock32 s.base.nReq } else x)
      (fun o => by by_cases h : o.id = r.id <;> simp only [seen, hit, h, if_true, if_false, stamp_eq]),
    viewOf_modify r.id (touch r) (fun _ => rfl) (fun x => if x.id = r.id then { x with next := r.next } else x)
      (fun o => by by_cases h : o.id = r.id <;> simp only [seen, touch, h, if_true, if_false]), List.map_map]
  apply List.map_congr_left
  intro x _
  by_cases h : x.id = r.id <;> simp [h]

theorem insert_spec {r : Req} (h : Inv P cs md s) (hn : s.base.lookup r.id = none) (hroom : s.base.occ + r.size + md ≤ cs) (hsz : Spec.SizeOk md r) :
    ∃ s', insert s r = .ok s' ∧ Inv P cs md s' ∧ s'.base.cached = (r.id, r.size % u32) :: s.base.cached ∧
      view P s' = { view P s with queue := ⟨r.id, r.size % u32, 0, clock32 s.base.nReq, r.next⟩ :: (view P s).queue } ∧
      s'.base.adm = s.base.adm ∧ s'.base.nReq = s.base.nReq ∧ s'.q = r.id :: s.q ∧ s'.next = s.next ∧ s'.list = s.list ∧ s'.pos = s.pos := by
  have hn' : (qs s).base.lookup r.id = none := hn
  have hnq : r.id ∉ s.q := h.q.notMem_of_lookup hn'
  obtain ⟨x, h1, h2, h3, h4⟩ := h.q.insert ⟨0, stamp s.base.nReq⟩ r hn' hroom hsz
  have h2' : QInv cs md ⟨s.base.insertBase ⟨0, stamp s.base.nReq⟩ r, r.id :: s.q⟩ := by
    rw [show (⟨s.base.insertBase ⟨0, stamp s.base.nReq⟩ r, r.id :: s.q⟩ : QState Meta) = x by cases x; simp only at h3 h4; rw [h3, h4]; rfl]; exact h2
  refine ⟨{ s with base := s.base.insertBase ⟨0, stamp s.base.nReq⟩ r, q := r.id :: s.q }, by simp [insert, qPrepend, hnq], ⟨h2', ?_, h.len, ?_⟩, cached_insertBase .., ?_, rfl, rfl, rfl, rfl, rfl, rfl⟩
  · rcases h.next with e | ⟨i, hi, e⟩
    · exact .inl e
    · exact .inr ⟨i, List.mem_cons_of_mem _ hi, e⟩
  · obtain ⟨ids, k1, k2, k3⟩ := h.doom
    exact ⟨ids, k1, k2, fun i hi => ⟨List.mem_cons_of_mem _ (k3 i hi).1, (k3 i hi).2⟩⟩
  · have hlk : (s.base.insertBase ⟨0, stamp s.base.nReq⟩ r).lookup r.id = some (Obj.ofReq ⟨0, stamp s.base.nReq⟩ r) := by rw [lookup_insertBase]; simp
    unfold view
    simp only
    rw [viewOf_cons hlk, viewOf_insert _ r hnq]
    simp only [seen, Obj.ofReq, stamp_eq]
    rfl

/-- The calls for which the cache keeps its pointers valid. -/
abbrev perms : Spec.Perms := { rem := false }

theorem spec (P : Params) (hP : P.policy ≠ .none) (cs md : Nat) :
    SBSpec (algo P) (fun s => s.base) (fun s b => { s with base := b }) (Inv P cs md) cs md perms where
  base_set := fun _ _ => rfl
  occ := fun _ => rfl
  nObj := fun _ => rfl
  csz := fun _ => rfl
  mdz := fun _ => rfl
  bumpEq := fun _ => rfl
  canEq := fun _ _ => rfl
  fuel := fun _ => Nat.le_refl _
  inv := fun h => h.q.base
  frame := fun n a h => h.base (h.q.frame n a)
  findF := fun r _ => find_false _ r
  findHit := fun {s} r o h ho => by
    refine ⟨_, find_hit ho, hit_inv h r, ?_⟩
    simp only
    rw [Base.cached_modify _ _ (hit s.base.nReq) (fun _ => rfl) (fun _ => rfl), Base.cached_modify _ _ (touch r) (fun _ => rfl) (fun _ => rfl)]
  findMiss := fun r _ ho => find_miss ho
  evict := fun {s} r h hne _ => by
    obtain ⟨s', v, h1, h2, h3, _⟩ := evict_spec hP h hne
    exact ⟨s', v, h1, h2, h3⟩
  insert := fun {s} r h hn hroom hsz => by
    obtain ⟨s', h1, h2, h3, _⟩ := insert_spec h hn hroom hsz
    exact ⟨s', h1, h2, by rw [h3]⟩
  removeMiss := fun h => by cases h
  removeHit := fun h => by cases h

theorem sim (P : Params) (hP : P.policy ≠ .none) (cs md : Nat) :
    CSim (algo P) (fun s => s.base) (fun s b => { s with base := b }) (Inv P cs md) cs md (Spec.Merge.merge (ranking P) P.nExam P.nKeep) (view P) perms where
  contents := fun {s} n h => by
    show ((viewOf seen s.base s.q).map Seen.entry).Perm _
    rw [viewOf_map]
    exact viewOf_perm_tbl h.q.base.inv.nodup h.q.q
  frame := fun s n a => rfl
  findHit := fun {s s'} r o h ho hf => by
    have hf' : find s r true = .ok (true, s') := hf
    rw [find_hit ho] at hf'
    cases hf'
    refine ⟨?_, rfl, rfl⟩
    simp only [Spec.Merge.merge]
    unfold view
    simp only
    rw [hit_view]
    rfl
  evict := fun {s s'} r h hne hf => by
    obtain ⟨s1, v, h1, h2, h3, h4, h5, h6⟩ := evict_spec hP h hne
    have hf' : evict P s = .ok s' := hf
    rw [h1] at hf'
    cases hf'
    exact ⟨h4, h5, h6⟩
  insert := fun {s s'} r h hn hroom hsz hf => by
    obtain ⟨s1, h1, h2, h3, h4, h5, h6, _⟩ := insert_spec h hn hroom hsz
    have hf' : insert s r = .ok s' := hf
    rw [h1] at hf'
    cases hf'
    exact ⟨h4, h5, h6⟩
  remove := fun h => by cases h

/-- The state without request counter and admission policy. -/
def core (s : State) : Quiet Meta × List ObjId × Ptr × List Node × Nat × List Nat := (s.base.quiet, s.q, s.next, s.list, s.pos, s.picks)

theorem strong (P : Params) (hP : P.policy ≠ .none) (cs md : Nat) :
    SBStrong (algo P) (fun s => s.base) (Inv P cs md) cs md core perms (Spec.SizeOk md) :=
  (spec P hP cs md).strong core (fun _ _ _ => rfl)

/-! ### A cache that never holds more objects than are examined -/

/-- No scan has ever been made. -/
structure Small (P : Params) (cs md b : Nat) (s : State) : Prop where
  q : QInv cs md (qs s)
  next : s.next = .null
  list : s.list = []
  pos : P.nExam ≤ s.pos
  big : ∀ x ∈ s.base.cached, b ≤ x.2 + md

theorem Small.inv {b : Nat} (h : Small P cs md b s) : Inv P cs md s :=
  ⟨h.q, .inl h.next, fun hl => absurd h.pos (by omega), [], by simp [pend, h.list], by simp, by simp⟩

theorem charge_ge {md b : Nat} {l : List (ObjId × Nat)} (h : ∀ x ∈ l, b ≤ x.2 + md) : b * l.length ≤ charge md l := by
  induction l with
  | nil => simp
  | cons x l ih =>
    have h1 := h x (by simp)
    have h2 := ih (fun y hy => h y (by simp [hy]))
    rw [List.length_cons, Nat.mul_add, charge]
    omega

/-- The requests: none is so small that more than `nExam` objects could be cached. -/
def BigOk (md b : Nat) (r : Req) : Prop := Spec.SizeOk md r ∧ b ≤ r.size % u32 + md

theorem Small.few {b : Nat} (hc : cs < (P.nExam + 1) * b) (h : Small P cs md b s) : s.base.nObj ≤ P.nExam := by
  have h1 := charge_ge h.big
  have h2 : (charge md s.base.cached : Int) ≤ cs := by
    have e := h.q.base.inv.occ_eq
    have hc := h.q.base.inv.cap
    have e1 := h.q.base.md
    have e2 := h.q.base.cs
    simp only [qs] at *
    rw [e1] at e; rw [e2] at hc; omega
  have h3 := h.q.base.inv.nObj_eq
  have h4 : s.base.cached.length = s.base.tbl.length := by simp [Base.cached]
  simp only [qs] at h3
  rw [h3]
  by_contra hlt
  have hlt' : P.nExam + 1 ≤ s.base.cached.length := by omega
  have := Nat.mul_le_mul_left b hlt'
  rw [Nat.mul_comm] at hc
  omega

def order (s : State) : Spec.Contents := (viewOf seen s.base s.q).map Seen.entry

theorem small_drop {b : Nat} {v : ObjId} (h : Small P cs md b s) (hv : v ∈ s.q) :
    ∃ s' n, dropObj s v = .ok s' ∧ Small P cs md b s' ∧ s.base.cached.Perm ((v, n) :: s'.base.cached) ∧ s'.base.adm = s.base.adm ∧
      order s' = (order s).filter (fun x => x.1 ≠ v) ∧ ((∃ l, s.q = l ++ [v]) → order s' = (order s).dropLast) := by
  obtain ⟨s', n, k1, k2, k3, k4, k5, k6, k7, k8, k9, k10, k11⟩ := drop_spec h.q hv
  refine ⟨s', n, k1, ⟨k2, by rw [k5, h.next]; rfl, by rw [k6, h.list]; rfl, by rw [k7]; exact h.pos, fun x hx => h.big x (k3.symm.subset (by simp [hx]))⟩, k3, k9, ?_, ?_⟩
  · unfold order
    rw [k11]
    unfold Spec.Merge.drop
    rw [List.filter_map]
    rfl
  · rintro ⟨l, hl⟩
    unfold order
    rw [k11, view_dropLast (Full.q h.q) h.q.nodup hl, List.map_dropLast]

theorem small_evict {b : Nat} (hc : cs < (P.nExam + 1) * b) (h : Small P cs md b s) (hne : s.base.tbl ≠ []) :
    ∃ s' v, evict P s = .ok s' ∧ Small P cs md b s' ∧ s.base.cached.Perm (v :: s'.base.cached) ∧ s'.base.adm = s.base.adm ∧ order s' = (order s).dropLast := by
  obtain ⟨l, t, hq, ht⟩ := tail_spec h.q hne
  have e : ({ s with next := .null } : State) = s := by rw [← h.next]
  obtain ⟨s', n, k1, k2, k3, k4, _, k6⟩ := small_drop (v := t) h (by simp [hq])
  refine ⟨s', _, ?_, k2, k3, k4, k6 ⟨l, hq⟩⟩
  have := h.pos
  unfold evict evictMore
  rw [if_neg (by omega), if_pos (h.few hc), ht, Res.bind_ok, e, k1]

theorem small_hit {b : Nat} (h : Small P cs md b s) (r : Req) : Small P cs md b { s with base := (s.base.modify r.id (touch r)).modify r.id (hit s.base.nReq) } := by
  refine ⟨(hit_inv (P := P) h.inv r).q, h.next, h.list, h.pos, ?_⟩
  simp only
  rw [Base.cached_modify _ _ (hit s.base.nReq) (fun _ => rfl) (fun _ => rfl), Base.cached_modify _ _ (touch r) (fun _ => rfl) (fun _ => rfl)]
  exact h.big

theorem small_insert {b : Nat} {r : Req} (h : Small P cs md b s) (hn : s.base.lookup r.id = none) (hroom : s.base.occ + r.size + md ≤ cs) (hsz : BigOk md b r) :
    ∃ s', insert s r = .ok s' ∧ Small P cs md b s' ∧ s'.base.cached = (r.id, r.size % u32) :: s.base.cached ∧ s'.base.adm = s.base.adm ∧
      order s' = (r.id, r.size % u32) :: order s := by
  obtain ⟨s', k1, k2, k3, k4, k5, k6, k7, k8, k9, k10⟩ := insert_spec (P := P) h.inv hn hroom hsz.1
  refine ⟨s', k1, ⟨k2.q, by rw [k8, h.next], by rw [k9, h.list], by rw [k10]; exact h.pos, ?_⟩, k3, k5, ?_⟩
  · rw [k3]
    intro x hx
    rcases List.mem_cons.1 hx with rfl | hx
    · exact hsz.2
    · exact h.big x hx
  · have := congrArg St.queue k4
    simp only [view] at this
    unfold order
    rw [this]; rfl

theorem small_remove {b : Nat} {id : ObjId} {o : Obj Meta} (h : Small P cs md b s) (ho : s.base.lookup id = some o) :
    ∃ s', remove s id = .ok (true, s') ∧ Small P cs md b s' ∧ s.base.cached.Perm ((o.id, o.size) :: s'.base.cached) ∧ s'.base.adm = s.base.adm ∧
      order s' = (order s).filter (fun x => x.1 ≠ id) := by
  have hm : id ∈ s.q := (h.q.mem_iff id).2 ⟨o, ho⟩
  obtain ⟨s', n, k1, k2, k3, k4, k5, _⟩ := small_drop (v := id) h hm
  refine ⟨s', by simp [remove, ho, k1], k2, ?_, k4, k5⟩
  have hid := (lookup_some_mem ho).2
  have hmem : (o.id, o.size) ∈ s.base.cached := List.mem_map.2 ⟨o, (lookup_some_mem ho).1, rfl⟩
  have := k3.subset hmem
  rcases List.mem_cons.1 this with e | e
  · rw [e]; exact k3
  · exfalso
    have hnd : (s.base.cached.map Prod.fst).Nodup := by
      have := h.q.base.inv.nodup
      simp only [qs] at this
      simpa [Base.cached, Function.comp_def] using this
    have h2 := (k3.map Prod.fst).nodup_iff.1 hnd
    rw [List.map_cons, List.nodup_cons] at h2
    exact h2.1 (List.mem_map.2 ⟨_, e, hid⟩)

theorem small_spec (P : Params) (cs md b : Nat) (hc : cs < (P.nExam + 1) * b) :
    SBSpec (algo P) (fun s => s.base) (fun s b => { s with base := b }) (Small P cs md b) cs md {} (BigOk md b) where
  base_set := fun _ _ => rfl
  occ := fun _ => rfl
  nObj := fun _ => rfl
  csz := fun _ => rfl
  mdz := fun _ => rfl
  bumpEq := fun _ => rfl
  canEq := fun _ _ => rfl
  fuel := fun _ => Nat.le_refl _
  inv := fun h => h.q.base
  frame := fun n a h => ⟨h.q.frame n a, h.next, h.list, h.pos, h.big⟩
  findF := fun r _ => find_false _ r
  findHit := fun {s} r o h ho => by
    refine ⟨_, find_hit ho, small_hit h r, ?_⟩
    simp only
    rw [Base.cached_modify _ _ (hit s.base.nReq) (fun _ => rfl) (fun _ => rfl), Base.cached_modify _ _ (touch r) (fun _ => rfl) (fun _ => rfl)]
  findMiss := fun r _ ho => find_miss ho
  evict := fun {s} r h hne _ => by
    obtain ⟨s', v, h1, h2, h3, _⟩ := small_evict hc h hne
    exact ⟨s', v, h1, h2, h3⟩
  insert := fun {s} r h hn hroom hsz => by
    obtain ⟨s', h1, h2, h3, _⟩ := small_insert h hn hroom hsz
    exact ⟨s', h1, h2, by rw [h3]⟩
  removeMiss := fun _ {s} id _ hn => by
    show remove s id = _
    simp [remove, hn]
  removeHit := fun _ {s} id o h ho => by
    obtain ⟨s', h1, h2, h3, _⟩ := small_remove h ho
    exact ⟨s', h1, h2, h3⟩

theorem small_sim (P : Params) (cs md b : Nat) (hc : cs < (P.nExam + 1) * b) :
    Sim (algo P) (fun s => s.base) (fun s b => { s with base := b }) (Small P cs md b) cs md Spec.fifo order {} (BigOk md b) where
  contents := fun {s} h => by
    show (order s).Perm _
    unfold order
    rw [viewOf_map]
    exact viewOf_perm_tbl h.q.base.inv.nodup h.q.q
  frame := fun s n a => rfl
  findHit := fun {s s'} r o h ho hf => by
    have hf' : find s r true = .ok (true, s') := hf
    rw [find_hit ho] at hf'
    cases hf'
    refine ⟨?_, rfl⟩
    show order _ = order s
    unfold order
    simp only
    rw [hit_view, List.map_map]
    apply List.map_congr_left
    intro x _
    by_cases hx : x.id = r.id <;> simp [hx, Seen.entry]
  evict := fun {s s'} r h hne hf => by
    obtain ⟨s1, v, h1, h2, h3, h4, h5⟩ := small_evict hc h hne
    have hf' : evict P s = .ok s' := hf
    rw [h1] at hf'
    cases hf'
    exact ⟨h5, h4⟩
  insert := fun {s s'} r h hn hroom hsz hf => by
    obtain ⟨s1, h1, h2, h3, h4, h5⟩ := small_insert h hn hroom hsz
    have hf' : insert s r = .ok s' := hf
    rw [h1] at hf'
    cases hf'
    exact ⟨h5, h4⟩
  remove := fun {s s'} id o h ho hf => by
    obtain ⟨s1, h1, h2, h3, h4, h5⟩ := small_remove h ho
    have hf' : remove s id = .ok (true, s') := hf
    rw [h1] at hf'
    cases hf'
    exact ⟨h5, h4⟩

theorem small_init (P : Params) (cs md b : Nat) (adm : Adm) (picks : List Nat) (hP : P.nExam ≤ 2147483647) : Small P cs md b (init cs md adm picks) :=
  ⟨QInv.init cs md adm, rfl, rfl, hP, by simp [init, Base.init, Base.cached]⟩

/-! ### Ranks -/

section rank
variable (R : Hyperbolic.Rounding)

theorem rnd_one_le {y : Int} (h : 0 < y) : (1 : Rat) ≤ R.rnd y := by
  have h1 := R.mono 1 y (by exact_mod_cast h)
  have h2 := R.ints 1 (by norm_num)
  norm_num at h2
  rw [h2] at h1
  exact h1

theorem rnd_nonneg {x : Rat} (h : 0 ≤ x) : 0 ≤ R.rnd x := by
  have h1 := R.mono 0 x h
  have h2 := R.ints 0 (by norm_num)
  norm_num at h2
  rw [h2] at h1
  exact h1

theorem rnd_le_one {x : Rat} (h : x ≤ 1) : R.rnd x ≤ 1 := by
  have h1 := R.mono x 1 h
  have h2 := R.ints 1 (by norm_num)
  norm_num at h2
  rw [h2] at h1
  exact h1

theorem div_fin {x : Rat} {y : Int} (h : 0 < y) : Dbl.div R (.fin x) y = .fin (R.rnd (x / R.rnd y)) := by
  simp only [Dbl.div]
  rw [if_neg (by omega)]

theorem div_mono {a b : Dbl} {y : Int} (hy : 0 < y) (ha : a ≠ .nan) (hb : b ≠ .nan) (h : Dbl.lt b a = false) :
    Dbl.lt (Dbl.div R b y) (Dbl.div R a y) = false := by
  have hneg : ¬ y < 0 := by omega
  have hr := rnd_one_le R hy
  cases a with
  | nan => exact absurd rfl ha
  | inf =>
    cases b with
    | nan => exact absurd rfl hb
    | inf => simp [Dbl.div, hneg, Dbl.lt]
    | ninf => simp [Dbl.lt] at h
    | fin x => simp [Dbl.lt] at h
  | ninf =>
    cases b with
    | nan => exact absurd rfl hb
    | inf => simp [Dbl.div, hneg, Dbl.lt]
    | ninf => simp [Dbl.div, hneg, Dbl.lt]
    | fin x => rw [div_fin R hy]; simp [Dbl.div, hneg, Dbl.lt]
  | fin x =>
    cases b with
    | nan => exact absurd rfl hb
    | inf => simp [Dbl.div, hneg, Dbl.lt]
    | ninf => simp [Dbl.lt] at h
    | fin z =>
      rw [div_fin R hy, div_fin R hy]
      simp only [Dbl.lt, decide_eq_false_iff_not, not_lt] at h ⊢
      apply R.mono
      exact div_le_div_of_nonneg_right h (by linarith)

theorem div_ne_nan {a : Dbl} {y : Int} (hy : 0 < y) (ha : a ≠ .nan) : Dbl.div R a y ≠ .nan := by
  have hneg : ¬ y < 0 := by omega
  cases a with
  | nan => exact absurd rfl ha
  | inf => simp [Dbl.div, hneg]
  | ninf => simp [Dbl.div, hneg]
  | fin x => rw [div_fin R hy]; simp

/-- dividing the positive constant by an integer -/
theorem div_const_ne_nan (y : Int) : Dbl.div R (.fin (10 ^ 12)) y ≠ .nan := by
  simp only [Dbl.div]
  split
  · norm_num; simp
  · simp

/-- a larger divisor gives a smaller quotient -/
theorem div_anti {a b : Int} (ha : 0 ≤ a) (h : a < b) : Dbl.lt (Dbl.div R (.fin (10 ^ 12)) a) (Dbl.div R (.fin (10 ^ 12)) b) = false := by
  rw [div_fin R (by omega : 0 < b)]
  by_cases h0 : a = 0
  · subst h0
    unfold Dbl.div
    norm_num [Dbl.lt]
  · rw [div_fin R (by omega)]
    simp only [Dbl.lt, decide_eq_false_iff_not, not_lt]
    apply R.mono
    have h1 := rnd_one_le R (by omega : 0 < a)
    have h2 := R.mono a b (by exact_mod_cast (le_of_lt h))
    exact div_le_div_of_nonneg_left (by norm_num) (by linarith) h2

end rank

theorem rank_ne_nan (hP : P.policy ≠ .none) {x : Seen} (hx : 0 < x.size) (now d : Nat) : rankOf P now d x ≠ .nan := by
  have hs : (0 : Int) < x.size := by exact_mod_cast hx
  unfold rankOf
  split
  · exact div_ne_nan P.R hs (by simp)
  · exact div_ne_nan P.R hs (div_const_ne_nan P.R _)
  · split
    · simp
    · exact div_ne_nan P.R hs (div_const_ne_nan P.R _)
  · next h => exact absurd h hP

/-- The ranks given are ranks of the objects. -/
theorem ranks_mem {K : Ranking} {now : Nat} {l : List Seen} {d : List Nat} {e : K.V × ObjId} (h : e ∈ (ranks K now l d).1) :
    ∃ x ∈ l, ∃ d', e = (K.rank now d' x, x.id) := by
  induction l generalizing d with
  | nil => simp [ranks] at h
  | cons x l ih =>
    simp only [ranks, List.mem_cons] at h
    rcases h with h | h
    · exact ⟨x, by simp, _, h⟩
    · obtain ⟨y, hy, hd⟩ := ih h
      exact ⟨y, by simp [hy], hd⟩

theorem order_perm (P : Params) (l : List (Dbl × ObjId)) : ((ranking P).order l).Perm (l.map (·.2)) := by
  have h1 := (P.S.perm (nodes l)).filterMap (fun e => ptrId e.2)
  refine h1.trans (List.Perm.of_eq ?_)
  unfold nodes
  rw [List.filterMap_map]
  clear h1
  induction l with
  | nil => rfl
  | cons a l ih => simp only [List.filterMap_cons, Function.comp, ptrId, List.map_cons] at ih ⊢; rw [ih]

/-- Cutting the sorted list: no one in front is ranked above one behind. -/
theorem cut_sorted (P : Params) {l : List (Dbl × ObjId)} (hnan : ∀ e ∈ l, e.1 ≠ .nan) (hnd : (l.map (·.2)).Nodup) (n : Nat)
    {a b : Dbl × ObjId} (ha : a ∈ l) (hb : b ∈ l) (hin : a.2 ∈ ((ranking P).order l).take n) (hout : b.2 ∉ ((ranking P).order l).take n) : Dbl.lt b.1 a.1 = false := by
  have hs := P.S.sorted (nodes l) (by
    intro x hx
    obtain ⟨y, hy, rfl⟩ := List.mem_map.1 hx
    exact hnan y hy)
  have hp := P.S.perm (nodes l)
  have hall : ∀ e ∈ P.S.sort (nodes l), ∃ x ∈ l, e = (x.1, Ptr.to x.2) := by
    intro e he
    obtain ⟨y, hy, hye⟩ := List.mem_map.1 (hp.subset he)
    exact ⟨y, hy, hye.symm⟩
  have hord : (ranking P).order l = (P.S.sort (nodes l)).filterMap (fun e => ptrId e.2) := rfl
  rw [hord] at hin hout
  have hA : (a.1, Ptr.to a.2) ∈ P.S.sort (nodes l) := hp.symm.subset (List.mem_map.2 ⟨a, ha, rfl⟩)
  have hB : (b.1, Ptr.to b.2) ∈ P.S.sort (nodes l) := hp.symm.subset (List.mem_map.2 ⟨b, hb, rfl⟩)
  generalize P.S.sort (nodes l) = S at *
  clear hp hord
  have huniq : ∀ x ∈ l, ∀ y ∈ l, x.2 = y.2 → x = y := by
    intro x hx y hy e
    exact List.inj_on_of_nodup_map hnd hx hy e
  induction S generalizing n with
  | nil => simp at hA
  | cons e S ih =>
    obtain ⟨x, hx, rfl⟩ := hall e (by simp)
    rw [List.pairwise_cons] at hs
    have e1 : ((x.1, Ptr.to x.2) :: S).filterMap (fun e => ptrId e.2) = x.2 :: S.filterMap (fun e => ptrId e.2) := rfl
    rw [e1] at hin hout
    cases n with
    | zero => simp at hin
    | succ n =>
      rw [List.take_succ_cons] at hin hout
      simp only [List.mem_cons, not_or] at hin hout
      have hbx : b ≠ x := fun e => hout.1 (by rw [e])
      have hB' : (b.1, Ptr.to b.2) ∈ S := by
        rcases List.mem_cons.1 hB with h | h
        · have h2 := (Prod.mk.injEq .. ▸ h).2
          simp only [Ptr.to.injEq] at h2
          exact absurd (huniq b hb x hx h2) hbx
        · exact h
      rcases List.mem_cons.1 hA with h | h
      · have h2 := hs.1 _ hB'
        rw [Prod.mk.injEq] at h
        rw [h.1]; exact h2
      · rcases hin with hin | hin
        · have := huniq a ha x hx hin
          have h2 := hs.1 _ hB'
          rw [this]; exact h2
        · exact ih n hin hout.2 hs.2 (fun e he => hall e (by simp [he])) h hB'

theorem rank_frequency (hP : P.policy = .frequency) {x y : Seen} (hs : x.size = y.size) (h0 : 0 < x.size) (h : x.hits < y.hits) (now d d' : Nat) :
    Dbl.lt (rankOf P now d y) (rankOf P now d' x) = false := by
  have hsz : (0 : Int) < x.size := by exact_mod_cast h0
  unfold rankOf
  rw [hP]
  simp only
  rw [← hs]
  apply div_mono P.R hsz (by simp) (by simp)
  simp only [Dbl.lt, decide_eq_false_iff_not, not_lt]
  apply P.R.mono
  have key : P.R.rnd (x.hits + P.R.rnd (((d' % 1000 : Nat) : Rat) / 10000)) ≤ P.R.rnd (y.hits + P.R.rnd (((d % 1000 : Nat) : Rat) / 10000)) := by
    apply P.R.mono
    have h1 : P.R.rnd (((d' % 1000 : Nat) : Rat) / 10000) ≤ 1 := by
      apply rnd_le_one
      have : d' % 1000 < 1000 := Nat.mod_lt _ (by omega)
      have h2 : ((d' % 1000 : Nat) : Rat) ≤ 1000 := by exact_mod_cast this.le
      rw [div_le_iff₀ (by norm_num)]
      linarith
    have h3 : 0 ≤ P.R.rnd (((d % 1000 : Nat) : Rat) / 10000) := by
      apply rnd_nonneg
      exact div_nonneg (by exact_mod_cast Nat.zero_le _) (by norm_num)
    have h4 : (x.hits : Rat) + 1 ≤ y.hits := by exact_mod_cast h
    linarith
  linarith

theorem rank_recency (hP : P.policy = .recency) {x y : Seen} (hs : x.size = y.size) (h0 : 0 < x.size) (now : Nat) (h : x.last < y.last) (hn : y.last ≤ now) (d d' : Nat) :
    Dbl.lt (rankOf P now d y) (rankOf P now d' x) = false := by
  have hsz : (0 : Int) < x.size := by exact_mod_cast h0
  unfold rankOf
  rw [hP]
  simp only
  rw [← hs]
  exact div_mono P.R hsz (div_const_ne_nan P.R _) (div_const_ne_nan P.R _) (div_anti P.R (by omega) (by omega))

theorem rank_belady (hP : P.policy = .belady) {x y : Seen} (hs : x.size = y.size) (h0 : 0 < x.size) (now : Nat) (hn : (now : Int) ≤ y.next) (h : y.next < x.next) (hx : x.next ≤ 9223372036854775807)
    (d d' : Nat) : Dbl.lt (rankOf P now d y) (rankOf P now d' x) = false := by
  have hsz : (0 : Int) < x.size := by exact_mod_cast h0
  unfold rankOf
  rw [hP]
  simp only
  rw [← hs]
  · rw [if_neg (by omega)]
    split
    · by_cases e : y.next - now = 0
      · rw [e, show Dbl.div P.R (.fin (10 ^ 12)) 0 = .inf by simp only [Dbl.div]; norm_num]
        simp only [Dbl.div]
        rw [if_neg (by omega)]
        rfl
      · rw [div_fin P.R (by omega), div_fin P.R hsz]
        simp only [Dbl.lt, decide_eq_false_iff_not, not_lt]
        have h1 := rnd_one_le P.R (by omega : 0 < y.next - (now : Int))
        have h2 := rnd_one_le P.R hsz
        have h3 := rnd_nonneg P.R (x := 10 ^ 12 / P.R.rnd ((y.next - now : Int) : Rat)) (div_nonneg (by norm_num) (by linarith))
        have h4 := rnd_nonneg P.R (div_nonneg h3 (by linarith : 0 ≤ P.R.rnd ((x.size : Int) : Rat)))
        linarith
    · exact div_mono P.R hsz (div_const_ne_nan P.R _) (div_const_ne_nan P.R _) (div_anti P.R (by omega) (by omega))

/-! ### A sorting function -/

/-- `a ≤ b` with NaN below everything -/
def Dbl.le : Dbl → Dbl → Bool
  | .nan, _ => true
  | _, .nan => false
  | a, b => !Dbl.lt b a

theorem Dbl.le_total (a b : Dbl) : Dbl.le a b = true ∨ Dbl.le b a = true := by
  cases a <;> cases b <;> simp [Dbl.le, Dbl.lt]
  exact _root_.le_total _ _

theorem Dbl.le_trans (a b c : Dbl) (h : Dbl.le a b = true) (h' : Dbl.le b c = true) : Dbl.le a c = true := by
  cases a <;> cases b <;> cases c <;> simp_all [Dbl.le, Dbl.lt]
  exact _root_.le_trans h h'

/-- Insertion sort. -/
def insertion : Sorter where
  sort := List.insertionSort (fun a b : Node => Dbl.le a.1 b.1 = true)
  perm := fun l => List.perm_insertionSort _ l
  sorted := fun l h => by
    have : Std.Total (fun a b : Node => Dbl.le a.1 b.1 = true) := ⟨fun a b => Dbl.le_total a.1 b.1⟩
    have : IsTrans Node (fun a b : Node => Dbl.le a.1 b.1 = true) := ⟨fun a b c => Dbl.le_trans a.1 b.1 c.1⟩
    have := List.pairwise_insertionSort (fun a b : Node => Dbl.le a.1 b.1 = true) l
    refine this.imp_of_mem ?_
    intro a b ha hb hab
    have ha' := h a ((List.perm_insertionSort _ l).subset ha)
    have hb' := h b ((List.perm_insertionSort _ l).subset hb)
    revert hab ha' hb'
    cases a.1 <;> cases b.1 <;> simp [Dbl.le, Dbl.lt]

/-! ### The window -/

theorem window_ok {t : St} (n : Nat) (hid : (t.queue.map Seen.id).Nodup) (hlt : n < t.queue.length) (hhand : ∀ h, t.hand = some h → h ∈ t.queue.map Seen.id) :
    (∀ x ∈ window n t, x ∈ t.queue) ∧ ((window n t).map Seen.id).Nodup ∧ (window n t).length = n := by
  obtain ⟨A, L, hq, ha⟩ : ∃ A L, t.queue.reverse = A ++ L ∧ ahead t = L := by
    cases hh : t.hand with
    | none => exact ⟨[], t.queue.reverse, by simp, by simp [ahead, hh]⟩
    | some h =>
      refine ⟨t.queue.reverse.takeWhile (fun x => decide (x.id ≠ h)), t.queue.reverse.dropWhile (fun x => decide (x.id ≠ h)), (List.takeWhile_append_dropWhile).symm, by simp [ahead, hh]⟩
  have hnd : ((A ++ L).map Seen.id).Nodup := by rw [← hq, List.map_reverse]; exact List.nodup_reverse.2 hid
  have hlen : A.length + L.length = t.queue.length := by rw [← List.length_append, ← hq, List.length_reverse]
  have hmem : ∀ x, x ∈ A ++ L → x ∈ t.queue := fun x hx => by rw [← hq] at hx; exact List.mem_reverse.1 hx
  unfold window
  rw [ha, hq]
  refine ⟨?_, ?_, ?_⟩
  · intro x hx
    have := List.mem_of_mem_take hx
    rcases List.mem_append.1 this with h | h
    · exact hmem x (by simp [h])
    · exact hmem x h
  · rw [List.map_append, List.nodup_append] at hnd
    obtain ⟨h1, h2, h3⟩ := hnd
    by_cases hle : n ≤ L.length
    · rw [List.take_append_of_le_length hle, List.map_take]
      exact h2.sublist (List.take_sublist _ _)
    · rw [List.take_append, List.take_of_length_le (by omega), List.take_append_of_le_length (by omega), List.map_append, List.nodup_append]
      refine ⟨h2, ?_, ?_⟩
      · rw [List.map_take]; exact h1.sublist (List.take_sublist _ _)
      · intro a hL b hA e
        rw [List.map_take] at hA
        exact h3 b (List.mem_of_mem_take hA) a hL e.symm
  · rw [List.length_take, List.length_append, List.length_append]; omega

end Verif.FIFOMerge
