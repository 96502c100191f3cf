import Verif.Proof.FIFOMerge
import Verif.Algo.FIFOReinsertion
import Verif.Spec.Reinsert
/-!
# FIFO-Reinsertion
-/

namespace Verif.FIFOReinsertion
open Verif
open _root_.Verif.FIFOMerge (Params Ptr Node Meta Policy stamp retainMetric seen ptrId rankOf ranking nodes Full view_ids view_len view_take hp hp_id retain_ok nodes_to ranks_ids nodes_ids ptrIds)
open _root_.Verif.Spec.Merge (Seen Ranking ranks clock32)
open _root_.Verif.Spec.Reinsert (St ahead road halve toFront ranked)

def view (s : State) : St where
  queue := viewOf seen s.base s.q
  hand := ptrId s.next
  draws := s.picks

def qs (s : State) : QState Meta := ⟨s.base, s.q⟩

structure Inv (cs md : Nat) (s : State) : Prop where
  q : QInv cs md (qs s)
  next : s.next = .null ∨ ∃ id ∈ s.q, s.next = .to id

variable {P : Params} {cs md : Nat} {s : State}

theorem inv_init (cs md : Nat) (adm : Adm) (picks : List Nat) : Inv cs md (init cs md adm picks) :=
  ⟨QInv.init cs md adm, .inl rfl⟩

theorem Full.q (h : QInv cs md (qs s)) : Full s.base s.q := fun id hid => (h.mem_iff id).1 hid

theorem Full.rev (h : QInv cs md (qs s)) : Full s.base s.q.reverse := fun id hid => (h.mem_iff id).1 (List.mem_reverse.1 hid)

/-! ### Examining objects -/

theorem ptr_hp (q : List ObjId) : ptr q.head? = hp q := by
  unfold hp ptr
  cases q.head? <;> rfl

theorem tail_hp (q : List ObjId) : ptr q.getLast? = hp q.reverse := by
  rw [← ptr_hp, List.head?_reverse]

theorem succ_eq (h : QInv cs md (qs s)) {A B : List ObjId} {id : ObjId} (hq : s.q.reverse = A ++ id :: B) :
    succ s id = if B = [] then hp s.q.reverse else hp B := by
  unfold succ
  rw [Sieve.prevOf_rev hq h.nodup]
  cases B with
  | nil => simp only [List.head?_nil, if_true]; exact tail_hp s.q
  | cons b B => rfl

theorem exam_spec (hP : P.policy ≠ .none) (h : QInv cs md (qs s)) :
    ∀ n L A picks, s.q.reverse = A ++ L → L ≠ [] → n < L.length + s.q.length →
      exam P s n (hp L) picks = .ok (nodes (ranks (ranking P) s.base.nReq (viewOf seen s.base ((L ++ s.q.reverse).take n)) picks).1, hp ((L ++ s.q.reverse).drop n),
        (ranks (ranking P) s.base.nReq (viewOf seen s.base ((L ++ s.q.reverse).take n)) picks).2) := by
  intro n
  induction n with
  | zero =>
    intro L A picks _ hne _
    simp only [exam, List.take_zero, viewOf_nil, ranks, nodes, List.drop_zero]
    congr 2
    cases L with
    | nil => exact absurd rfl hne
    | cons a l => rfl
  | succ n ih =>
    intro L A picks hq hne hn
    cases L with
    | nil => exact absurd rfl hne
    | cons id B =>
      obtain ⟨o, ho⟩ := Full.rev h id (by rw [hq]; simp)
      rw [show hp (id :: B) = .to id from rfl]
      unfold exam
      simp only [ho, retain_ok hP, Res.bind_ok]
      rw [succ_eq h hq, List.cons_append, List.take_succ_cons, List.drop_succ_cons, viewOf_cons ho]
      simp only [List.length_cons] at hn
      have key : exam P s n (if B = [] then hp s.q.reverse else hp B) (if decide (P.policy = .frequency) then picks.tail else picks) =
          .ok (nodes (ranks (ranking P) s.base.nReq (viewOf seen s.base ((B ++ s.q.reverse).take n)) (if decide (P.policy = .frequency) then picks.tail else picks)).1,
            hp ((B ++ s.q.reverse).drop n),
            (ranks (ranking P) s.base.nReq (viewOf seen s.base ((B ++ s.q.reverse).take n)) (if decide (P.policy = .frequency) then picks.tail else picks)).2) := by
        by_cases hB : B = []
        · rw [if_pos hB]
          subst hB
          have hl : n < s.q.reverse.length := by simp only [List.length_nil, List.length_reverse] at hn ⊢; omega
          have := ih s.q.reverse [] (if decide (P.policy = .frequency) then picks.tail else picks) (by simp) (by intro e; simp [e] at hl) (by simp; simp at hl; omega)
          rw [this, List.take_append_of_le_length (by omega), List.drop_append_of_le_length (by omega), List.nil_append]
          congr 3
          have hd : s.q.reverse.drop n ≠ [] := by intro e; have := congrArg List.length e; simp at this; simp at hl; omega
          unfold hp
          rw [List.head?_append_of_ne_nil _ hd]
        · rw [if_neg hB]
          exact ih B (A ++ [id]) _ (by simp [hq]) hB (by omega)
      rw [key, Res.bind_ok]
      simp only [ranks, nodes]
      rw [show (seen o).id = id from (lookup_some_mem ho).2]
      rfl

/-- The pointer splits the queue. -/
theorem next_split (h : QInv cs md (qs s)) (hn : s.next = .null ∨ ∃ id ∈ s.q, s.next = .to id) (hne : s.q ≠ []) :
    ∃ A L, s.q.reverse = A ++ L ∧ L ≠ [] ∧ ahead (view s) = viewOf seen s.base L ∧ (start s).next = hp L := by
  rcases hn with hn | ⟨id, hid, hn⟩
  · refine ⟨[], s.q.reverse, by simp, by simpa using hne, ?_, ?_⟩
    · simp [ahead, view, hn, ptrId, viewOf_reverse]
    · unfold start; rw [hn]; exact tail_hp s.q
  · obtain ⟨A, B, hAB⟩ := List.append_of_mem (List.mem_reverse.2 hid)
    obtain ⟨hnA, hnB⟩ := Sieve.split_notMem hAB h.nodup
    refine ⟨A, id :: B, hAB, by simp, ?_, by unfold start; rw [hn]; exact hn⟩
    simp only [ahead, view, hn, ptrId]
    rw [← viewOf_reverse, hAB, viewOf_append]
    obtain ⟨o, ho⟩ := Full.rev h id (by rw [hAB]; simp)
    have hA : ∀ x ∈ viewOf seen s.base A, decide (x.id ≠ id) = true := by
      intro x hx
      have : x.id ∈ (viewOf seen s.base A).map Seen.id := List.mem_map_of_mem hx
      rw [view_ids (fun i hi => Full.rev h i (by rw [hAB]; simp [hi]))] at this
      simp only [decide_eq_true_eq]
      rintro rfl; exact hnA this
    rw [List.dropWhile_append_of_pos hA, viewOf_cons ho, List.dropWhile_cons_of_neg]
    simp [seen, (lookup_some_mem ho).2]

/-! ### Dropping and keeping objects -/

theorem drop_spec (h : QInv cs md (qs s)) {v : ObjId} (hv : v ∈ s.q) :
    ∃ s' n, dropObj s v = .ok s' ∧ QInv cs md (qs s') ∧ s.base.cached.Perm ((v, n) :: s'.base.cached) ∧ s'.q = s.q.erase v ∧
      s'.next = s.next.drop v ∧ s'.picks = s.picks ∧ s'.base.adm = s.base.adm ∧ s'.base.nReq = s.base.nReq ∧
      viewOf seen s'.base s'.q = Spec.Merge.drop (viewOf seen s.base s.q) v := by
  obtain ⟨o, ho⟩ := (h.mem_iff v).1 hv
  have ho' : s.base.lookup v = some o := ho
  obtain ⟨b', h1, h2, h3, h4, h5, h6, h7⟩ := h.base.remove ho
  have h1' : s.base.removeObjBase v = .ok b' := h1
  have hid := (lookup_some_mem ho').2
  have hperm := h.erase_perm hid h4
  refine ⟨{ s with base := b', q := s.q.erase v, next := s.next.drop v }, o.size, by simp [dropObj, qRemove, hv, h1'], ⟨h2, hperm⟩, by rw [hid] at h5; exact h5, rfl, rfl, rfl, h6, h7, ?_⟩
  simp only
  rw [erase_eq_filter (q := s.q) h.nodup, viewOf_erase h3 (by simp)]
  unfold Spec.Merge.drop
  exact viewOf_filter _ _ (fun o _ => rfl)

theorem dropAll_spec : ∀ (l : List Node) (ids : List ObjId) (s : State), QInv cs md (qs s) → l.map (·.2) = ids.map Ptr.to → ids.Nodup → (∀ i ∈ ids, i ∈ s.q ∧ s.next ≠ .to i) →
    ∃ s' vs, dropAll s l = .ok s' ∧ QInv cs md (qs s') ∧ vs.map Prod.fst = ids ∧ s.base.cached.Perm (vs ++ s'.base.cached) ∧ (∀ i, i ∈ s'.q ↔ i ∈ s.q ∧ i ∉ ids) ∧
      s'.next = s.next ∧ s'.picks = s.picks ∧ s'.base.adm = s.base.adm ∧ s'.base.nReq = s.base.nReq ∧
      viewOf seen s'.base s'.q = ids.foldl Spec.Merge.drop (viewOf seen s.base s.q) := by
  intro l
  induction l with
  | nil =>
    intro ids s h hl _ _
    have : ids = [] := by cases ids with | nil => rfl | cons a b => simp at hl
    subst this
    exact ⟨s, [], rfl, h, rfl, by simp, by simp, rfl, rfl, rfl, rfl, rfl⟩
  | cons e l ih =>
    intro ids s h hl hnd hq
    cases ids with
    | nil => simp at hl
    | cons v vs =>
      rw [List.map_cons, List.map_cons, List.cons.injEq] at hl
      rw [List.nodup_cons] at hnd
      obtain ⟨hv, hvn⟩ := hq v (by simp)
      obtain ⟨s1, n, k1, k2, k3, k4, k5, k6, k7, k8, k9⟩ := drop_spec h hv
      have hnx : s1.next = s.next := by rw [k5, FIFOMerge.drop_ne hvn]
      obtain ⟨s', ws, j1, j2, j3, j4, j5, j6, j7, j8, j9, j10⟩ := ih vs s1 k2 hl.2 hnd.2 (fun i hi => by
        obtain ⟨h1, h2⟩ := hq i (by simp [hi])
        refine ⟨?_, by rw [hnx]; exact h2⟩
        rw [k4]
        exact (List.mem_erase_of_ne (by rintro rfl; exact hnd.1 hi)).2 h1)
      refine ⟨s', (v, n) :: ws, by simp [dropAll, hl.1, dropPtr, k1, j1], j2, by simp [j3], ?_, ?_, j6.trans hnx, j7.trans k6, j8.trans k7, j9.trans k8, ?_⟩
      · exact k3.trans ((j4.cons _))
      · intro i
        rw [j5, k4, (show s.q.Nodup from h.nodup).mem_erase_iff, List.mem_cons, not_or]
        constructor
        · rintro ⟨⟨a, b⟩, c⟩; exact ⟨b, a, c⟩
        · rintro ⟨a, b, c⟩; exact ⟨⟨b, a⟩, c⟩
      · rw [j10, k9, List.foldl_cons]

def half : Obj Meta → Obj Meta := fun o => { o with mt := { o.mt with freq := (o.mt.freq + 1) / 2 } }

theorem keep_view (h : QInv cs md (qs s)) {v : ObjId} (hv : v ∈ s.q) :
    viewOf seen (s.base.modify v half) (v :: s.q.erase v) = toFront (viewOf seen s.base s.q) v := by
  obtain ⟨o, ho⟩ := (h.mem_iff v).1 hv
  have ho' : s.base.lookup v = some o := ho
  have hid := (lookup_some_mem ho').2
  rw [viewOf_modify v half (fun _ => rfl) (fun x => if x.id = v then halve x else x)
    (fun o => by by_cases e : o.id = v <;> simp only [seen, half, halve, e, if_true, if_false])]
  rw [viewOf_cons ho', erase_eq_filter (q := s.q) h.nodup, viewOf_filter (fun x => decide (x ≠ v)) (fun x : Seen => decide (x.id ≠ v)) (fun o _ => rfl), List.map_cons]
  unfold toFront Spec.Merge.drop
  have e1 : (viewOf seen s.base s.q).filter (fun x => decide (x.id = v)) = [seen o] := by
    rw [← viewOf_filter (fun x => decide (x = v)) (fun x : Seen => decide (x.id = v)) (fun o _ => rfl)]
    have : s.q.filter (fun x => decide (x = v)) = [v] := by
      have hn : s.q.Nodup := h.nodup
      have hc : s.q.filter (fun x => x == v) = [v] := by
        rw [List.filter_beq, List.count_eq_one_of_mem hn hv]; rfl
      rw [← hc]
      apply List.filter_congr
      intro x _
      rfl
    rw [this, viewOf_cons ho', viewOf_nil]
  rw [e1, List.map_cons, List.map_nil, List.singleton_append]
  rw [if_pos (show (seen o).id = v from hid)]
  congr 1
  conv => rhs; rw [← List.map_id (List.filter _ _)]
  apply List.map_congr_left
  intro x hx
  simp only [List.mem_filter, decide_eq_true_eq] at hx
  simp [hx.2]

theorem keepAll_spec : ∀ (l : List Node) (ids : List ObjId) (s : State), QInv cs md (qs s) → l.map (·.2) = ids.map Ptr.to → (∀ i ∈ ids, i ∈ s.q) →
    ∃ s', keepAll s l = .ok s' ∧ QInv cs md (qs s') ∧ s'.base.cached = s.base.cached ∧ (∀ i, i ∈ s'.q ↔ i ∈ s.q) ∧
      s'.next = s.next ∧ s'.picks = s.picks ∧ s'.base.adm = s.base.adm ∧ s'.base.nReq = s.base.nReq ∧
      viewOf seen s'.base s'.q = ids.foldl toFront (viewOf seen s.base s.q) := by
  intro l
  induction l with
  | nil =>
    intro ids s h hl _
    have : ids = [] := by cases ids with | nil => rfl | cons a b => simp at hl
    subst this
    exact ⟨s, rfl, h, rfl, fun _ => Iff.rfl, rfl, rfl, rfl, rfl, rfl⟩
  | cons e l ih =>
    intro ids s h hl hq
    cases ids with
    | nil => simp at hl
    | cons v vs =>
      rw [List.map_cons, List.map_cons, List.cons.injEq] at hl
      have hv := hq v (by simp)
      have hmem : ∀ i, i ∈ v :: s.q.erase v ↔ i ∈ s.q := fun i => (List.perm_cons_erase hv).mem_iff.symm
      have h1 := h.touchOnly v half (fun _ => rfl) (fun _ => rfl)
      have h2 : QInv cs md (qs { s with q := v :: s.q.erase v, base := s.base.modify v half }) :=
        ⟨h1.base, ((List.perm_cons_erase hv).symm.trans h1.q)⟩
      obtain ⟨s', j1, j2, j3, j4, j5, j6, j7, j8, j9⟩ := ih vs _ h2 hl.2 (fun i hi => (hmem i).2 (hq i (by simp [hi])))
      refine ⟨s', ?_, j2, ?_, fun i => (j4 i).trans (hmem i), j5, j6, j7, j8, ?_⟩
      · simp only [keepAll, hl.1, keepPtr, qMoveToHead, hv, if_true, Res.bind_ok]
        exact j1
      · rw [j3]; exact Base.cached_modify _ _ half (fun _ => rfl) (fun _ => rfl)
      · rw [j9, List.foldl_cons, keep_view h hv]

/-! ### Eviction -/

theorem len_q (h : QInv cs md (qs s)) : s.q.length = s.base.tbl.length := by
  have := h.q.length_eq
  rw [List.length_map] at this; exact this

theorem start_same (s : State) : (start s).base = s.base ∧ (start s).q = s.q ∧ (start s).picks = s.picks := by
  unfold start
  split <;> exact ⟨rfl, rfl, rfl⟩

theorem evict_spec (hP : P.policy ≠ .none) (hk : P.nKeep < P.nExam) (h : Inv cs md s) (hne : s.base.tbl ≠ []) :
    ∃ s' vs, evict P s = .ok s' ∧ Inv cs md s' ∧ vs ≠ [] ∧ s.base.cached.Perm (vs ++ s'.base.cached) ∧
      view s' = Spec.Reinsert.evict (ranking P) P.nExam P.nKeep s.base.nReq (view s) ∧
      s'.base.adm = s.base.adm ∧ s'.base.nReq = s.base.nReq ∧ vs.length = if s.q.length ≤ P.nExam then 1 else P.nExam - P.nKeep := by
  have hN : s.base.nObj = s.q.length := by rw [len_q h.q]; exact h.q.base.inv.nObj_eq
  have hvl : (view s).queue.length = s.q.length := view_len (Full.q h.q)
  have hqne : s.q ≠ [] := by
    intro e
    have := len_q h.q
    rw [e] at this
    exact hne (List.length_eq_zero_iff.1 this.symm)
  obtain ⟨A, L, hq, hLne, ha, hst⟩ := next_split h.q h.next hqne
  obtain ⟨e1, e2, e3⟩ := start_same s
  have hqi : QInv cs md (qs (start s)) := by unfold qs; rw [e1, e2]; exact h.q
  have hnd : (A ++ L).Nodup := by rw [← hq]; exact List.nodup_reverse.2 h.q.nodup
  have hlen : A.length + L.length = s.q.length := by rw [← List.length_append, ← hq, List.length_reverse]
  have hFL : Full s.base L := fun i hi => Full.rev h.q i (by rw [hq]; simp [hi])
  unfold evict Spec.Reinsert.evict
  rw [hvl, e1]
  by_cases hle : s.q.length ≤ P.nExam
  · rw [if_pos (by omega), if_pos hle, if_pos hle]
    cases L with
    | nil => exact absurd rfl hLne
    | cons v B =>
      obtain ⟨o, ho⟩ := hFL v (by simp)
      have hv : v ∈ (start s).q := by rw [e2, ← List.mem_reverse, hq]; simp
      obtain ⟨s', n, k1, k2, k3, k4, k5, k6, k7, k8, k9⟩ := drop_spec hqi hv
      rw [ha, viewOf_cons ho]
      simp only
      have hvB : v ∉ B := by
        have := (List.nodup_append.1 hnd).2.1
        exact (List.nodup_cons.1 this).1
      have hprev : Sieve.prevOf (start s).q v = B.head? := by rw [e2]; exact Sieve.prevOf_rev hq h.q.nodup
      refine ⟨{ s' with next := hp B }, [(v, n)], ?_, ⟨k2, ?_⟩, by simp, by rw [e1] at k3; exact k3, ?_, k7.trans (by rw [e1]), k8.trans (by rw [e1]), rfl⟩
      · unfold evictOne
        rw [hst]
        simp only [show hp (v :: B) = .to v from rfl, k1, Res.bind_ok, hprev, ptr_hp]
      · simp only
        unfold hp
        cases hB : B.head? with
        | none => exact .inl rfl
        | some b =>
          right
          have hb : b ∈ B := List.mem_of_mem_head? hB
          refine ⟨b, ?_, rfl⟩
          rw [k4, e2]
          refine (List.mem_erase_of_ne ?_).2 ?_
          · rintro rfl; exact hvB hb
          · rw [← List.mem_reverse, hq]; simp [hb]
      · unfold view
        simp only
        rw [k9, e1, e2, hp_id, k6, e3]
        rw [show (seen o).id = v from (lookup_some_mem ho).2]
        congr 1
        rw [← List.head?_map, view_ids (fun i hi => hFL i (by simp [hi]))]
  · rw [if_neg (by omega), if_neg hle, if_neg hle]
    have hLl : 0 < L.length := List.length_pos_of_ne_nil hLne
    have hex := exam_spec (s := start s) hP hqi P.nExam L A (start s).picks (by rw [e2]; exact hq) hLne (by rw [e2]; omega)
    rw [e2, e1, e3] at hex
    have hF : Full s.base (L ++ s.q.reverse) := by
      intro i hi
      rcases List.mem_append.1 hi with hi | hi
      · exact hFL i hi
      · exact Full.rev h.q i hi
    have hroad : road (view s) = viewOf seen s.base (L ++ s.q.reverse) := by
      unfold road
      rw [ha, viewOf_append, viewOf_reverse]; rfl
    -- the window has no object twice, and the hand is outside
    have hsplit : ∃ M, L ++ s.q.reverse = (L ++ A) ++ M := ⟨L, by rw [hq]; simp⟩
    obtain ⟨M, hM⟩ := hsplit
    have hLA : (L ++ A).Nodup := List.perm_append_comm.nodup_iff.1 hnd
    have hLAl : (L ++ A).length = s.q.length := by rw [List.length_append]; omega
    have htk : (L ++ s.q.reverse).take P.nExam = (L ++ A).take P.nExam := by rw [hM]; exact List.take_append_of_le_length (by omega)
    have hdr : (L ++ s.q.reverse).drop P.nExam = (L ++ A).drop P.nExam ++ M := by rw [hM]; exact List.drop_append_of_le_length (by omega)
    have hmemLA : ∀ i ∈ L ++ A, i ∈ s.q := by
      intro i hi
      rw [← List.mem_reverse, hq]
      exact List.perm_append_comm.subset hi
    obtain ⟨x, T, hT⟩ := List.exists_cons_of_ne_nil (show (L ++ A).drop P.nExam ≠ [] by intro e; have := congrArg List.length e; simp at this; simp at hLAl; omega)
    have hxnot : x ∉ (L ++ A).take P.nExam := by
      intro hx
      rw [← List.take_append_drop P.nExam (L ++ A), List.nodup_append] at hLA
      exact hLA.2.2 x hx x (by rw [hT]; simp) rfl
    have hxq : x ∈ s.q := hmemLA x (List.mem_of_mem_drop (by rw [hT]; simp : x ∈ (L ++ A).drop P.nExam))
    have hnext : hp ((L ++ s.q.reverse).drop P.nExam) = .to x := by rw [hdr, hT]; rfl
    have hhand : (road (view s))[P.nExam]?.map (·.id) = some x := by
      rw [hroad, ← List.getElem?_map, view_ids hF, ← List.head?_drop, hdr, hT]; rfl
    have hW : ∀ i ∈ (L ++ A).take P.nExam, i ∈ s.q := fun i hi => hmemLA i (List.mem_of_mem_take hi)
    have hWn : ((L ++ A).take P.nExam).Nodup := hLA.sublist (List.take_sublist _ _)
    have hWl : ((L ++ A).take P.nExam).length = P.nExam := by rw [List.length_take]; omega
    rw [hnext, htk] at hex
    have hwin : (road (view s)).take P.nExam = viewOf seen s.base ((L ++ A).take P.nExam) := by rw [hroad, view_take hF, htk]
    have hrk : ranked (ranking P) P.nExam s.base.nReq (view s) =
        (P.S.sort (nodes (ranks (ranking P) s.base.nReq (viewOf seen s.base ((L ++ A).take P.nExam)) s.picks).1)).filterMap (fun e => ptrId e.2) := by
      unfold ranked; rw [hwin]; rfl
    rw [hrk, hhand, hwin]
    rw [show (view s).draws = s.picks from rfl]
    unfold scan
    rw [hst, e3, hex, Res.bind_ok]
    generalize hWW : (L ++ A).take P.nExam = W at *
    have hFW : Full s.base W := fun i hi => Full.q h.q i (hW i hi)
    have hids : (ranks (ranking P) s.base.nReq (viewOf seen s.base W) s.picks).1.map (·.2) = W := by rw [ranks_ids, view_ids hFW]
    have hperm := P.S.perm (nodes (ranks (ranking P) s.base.nReq (viewOf seen s.base W) s.picks).1)
    have hall : ∀ e ∈ P.S.sort (nodes (ranks (ranking P) s.base.nReq (viewOf seen s.base W) s.picks).1), ∃ i, e.2 = Ptr.to i := by
      intro e he
      have := hperm.subset he
      obtain ⟨x, _, hx⟩ := List.mem_map.1 this
      exact ⟨x.2, by rw [← hx]⟩
    have hsnd : ((P.S.sort (nodes (ranks (ranking P) s.base.nReq (viewOf seen s.base W) s.picks).1)).map (·.2)).Perm (W.map Ptr.to) := by
      exact (hperm.map (·.2)).trans (List.Perm.of_eq ((nodes_to _).trans (congrArg (List.map Ptr.to) hids)))
    simp only
    generalize P.S.sort (nodes (ranks (ranking P) s.base.nReq (viewOf seen s.base W) s.picks).1) = S at hall hsnd
    generalize (ranks (ranking P) s.base.nReq (viewOf seen s.base W) s.picks).2 = pk
    have hS := nodes_ids hall
    have hX : (S.filterMap (fun e => ptrId e.2)).Perm W := by
      rw [hS] at hsnd
      have := hsnd.filterMap ptrId
      rw [ptrIds, ptrIds] at this; exact this
    generalize S.filterMap (fun e => ptrId e.2) = X at hS hX
    have hXn : X.Nodup := hX.nodup_iff.2 hWn
    have hXl : X.length = P.nExam := by rw [hX.length_eq, hWl]
    obtain ⟨s1, vs, k1, k2, k3, k4, k5, k6, k7, k8, k9, k10⟩ := dropAll_spec (cs := cs) (md := md) (S.take (P.nExam - P.nKeep)) (X.take (P.nExam - P.nKeep))
      { start s with next := .to x, picks := pk } hqi (by rw [List.map_take, hS, List.map_take]) (hXn.sublist (List.take_sublist _ _)) (fun i hi => by
        have hi' : i ∈ W := hX.subset (List.mem_of_mem_take hi)
        refine ⟨by simp only; rw [e2]; exact hW i hi', ?_⟩
        simp only [ne_eq, Ptr.to.injEq]
        rintro rfl; exact hxnot hi')
    simp only [e1, e2] at k4 k5 k6 k7 k8 k9 k10
    obtain ⟨s2, j1, j2, j3, j4, j5, j6, j7, j8, j9⟩ := keepAll_spec (cs := cs) (md := md) (S.drop (P.nExam - P.nKeep)) (X.drop (P.nExam - P.nKeep)) s1 k2
      (by rw [List.map_drop, hS, List.map_drop]) (fun i hi => by
        rw [k5]
        refine ⟨hW i (hX.subset (List.mem_of_mem_drop hi)), fun hi' => ?_⟩
        rw [← List.take_append_drop (P.nExam - P.nKeep) X, List.nodup_append] at hXn
        exact hXn.2.2 i hi' i hi rfl)
    have hvl' : vs.length = P.nExam - P.nKeep := by
      have := congrArg List.length k3
      rw [List.length_map, List.length_take] at this; omega
    refine ⟨s2, vs, by rw [k1, Res.bind_ok, j1], ⟨j2, .inr ⟨x, ?_, j5.trans k6⟩⟩, ?_, by rw [j3]; exact k4, ?_, j7.trans k8, j8.trans k9, hvl'⟩
    · rw [j4, k5]
      exact ⟨hxq, fun hx => hxnot (hX.subset (List.mem_of_mem_take hx))⟩
    · intro e; rw [e] at hvl'; simp at hvl'; omega
    · unfold view
      rw [j9, k10, j5, k6, j6, k7]
      rfl

/-! ### Hits and insertions -/

theorem find_false (s : State) (r : Req) : find s r false = .ok ((s.base.lookup r.id).isSome, s) := by
  unfold find
  rw [findBase_false]
  cases h : s.base.lookup r.id <;> simp

theorem find_hit {r : Req} {o : Obj Meta} (ho : s.base.lookup r.id = some o) :
    find s r true = .ok (true, { s with base := (s.base.modify r.id (touch r)).modify r.id (FIFOMerge.hit s.base.nReq) }) := by
  have e : (touch r o).id = r.id := (lookup_some_mem ho).2
  simp [find, findBase_hit ho, e]; rfl

theorem find_miss {r : Req} (ho : s.base.lookup r.id = none) : find s r true = .ok (false, s) := by
  simp [find, findBase_miss ho]

theorem Inv.base {b : Base Meta} (h : Inv cs md s) (hb : QInv cs md ⟨b, s.q⟩) : Inv cs md { s with base := b } :=
  ⟨hb, h.next⟩

theorem hit_inv (h : Inv cs md s) (r : Req) : Inv cs md { s with base := (s.base.modify r.id (touch r)).modify r.id (FIFOMerge.hit s.base.nReq) } :=
  h.base ((h.q.touchOnly r.id (touch r) (fun _ => rfl) (fun _ => rfl)).touchOnly r.id (FIFOMerge.hit s.base.nReq) (fun _ => rfl) (fun _ => rfl))

theorem hit_view (r : Req) (q : List ObjId) (b : Base Meta) :
    viewOf seen ((b.modify r.id (touch r)).modify r.id (FIFOMerge.hit b.nReq)) q =
      (viewOf seen b q).map (fun x => if x.id = r.id then { x with hits := x.hits + 1, last := clock32 b.nReq, next := r.next } else x) :=
  FIFOMerge.hit_view (s := { base := b, q := [], next := .null, list := [], pos := 0, picks := [] }) r q

theorem insert_spec {r : Req} (h : Inv cs md s) (hn : s.base.lookup r.id = none) (hroom : s.base.occ + r.size + md ≤ cs) (hsz : Spec.SizeOk md r) :
    ∃ s', insert s r = .ok s' ∧ Inv cs md s' ∧ s'.base.cached = (r.id, r.size % u32) :: s.base.cached ∧
      view s' = { view s with queue := ⟨r.id, r.size % u32, 0, clock32 s.base.nReq, r.next⟩ :: (view s).queue } ∧
      s'.base.adm = s.base.adm ∧ s'.base.nReq = s.base.nReq := by
  have hn' : (qs s).base.lookup r.id = none := hn
  have hnq : r.id ∉ s.q := h.q.notMem_of_lookup hn'
  obtain ⟨x, h1, h2, h3, h4⟩ := h.q.insert ⟨0, stamp s.base.nReq⟩ r hn' hroom hsz
  have h2' : QInv cs md ⟨s.base.insertBase ⟨0, stamp s.base.nReq⟩ r, r.id :: s.q⟩ := by
    rw [show (⟨s.base.insertBase ⟨0, stamp s.base.nReq⟩ r, r.id :: s.q⟩ : QState Meta) = x by cases x; simp only at h3 h4; rw [h3, h4]; rfl]; exact h2
  refine ⟨{ s with base := s.base.insertBase ⟨0, stamp s.base.nReq⟩ r, q := r.id :: s.q }, by simp [insert, qPrepend, hnq], ⟨h2', ?_⟩, cached_insertBase .., ?_, rfl, rfl⟩
  · rcases h.next with e | ⟨i, hi, e⟩
    · exact .inl e
    · exact .inr ⟨i, List.mem_cons_of_mem _ hi, e⟩
  · have hlk : (s.base.insertBase ⟨0, stamp s.base.nReq⟩ r).lookup r.id = some (Obj.ofReq ⟨0, stamp s.base.nReq⟩ r) := by rw [lookup_insertBase]; simp
    unfold view
    simp only
    rw [viewOf_cons hlk, viewOf_insert _ r hnq]
    simp only [seen, Obj.ofReq, FIFOMerge.stamp_eq]

/-- The calls for which the cache keeps its pointer valid. -/
abbrev perms : Spec.Perms := { rem := false }

theorem spec (P : Params) (hP : P.policy ≠ .none) (hk : P.nKeep < P.nExam) (cs md : Nat) :
    SBMulti (algo P) (fun s => s.base) (fun s b => { s with base := b }) (Inv cs md) cs md perms where
  base_set := fun _ _ => rfl
  occ := fun _ => rfl
  nObj := fun _ => rfl
  csz := fun _ => rfl
  mdz := fun _ => rfl
  bumpEq := fun _ => rfl
  canEq := fun _ _ => rfl
  fuel := fun _ => Nat.le_refl _
  inv := fun h => h.q.base
  frame := fun n a h => h.base (h.q.frame n a)
  findF := fun r _ => find_false _ r
  findHit := fun {s} r o h ho => by
    refine ⟨_, find_hit ho, hit_inv h r, ?_⟩
    simp only
    rw [Base.cached_modify _ _ (FIFOMerge.hit s.base.nReq) (fun _ => rfl) (fun _ => rfl), Base.cached_modify _ _ (touch r) (fun _ => rfl) (fun _ => rfl)]
  findMiss := fun r _ ho => find_miss ho
  evict := fun {s} r h hne _ => by
    obtain ⟨s', vs, h1, h2, h3, h4, _⟩ := evict_spec hP hk h hne
    exact ⟨s', vs, h1, h2, h3, h4⟩
  insert := fun {s} r h hn hroom hsz => by
    obtain ⟨s', h1, h2, h3, _⟩ := insert_spec h hn hroom hsz
    exact ⟨s', h1, h2, by rw [h3]⟩
  removeMiss := fun h => by cases h
  removeHit := fun h => by cases h

theorem sim (P : Params) (hP : P.policy ≠ .none) (hk : P.nKeep < P.nExam) (cs md : Nat) :
    CSim (algo P) (fun s => s.base) (fun s b => { s with base := b }) (Inv cs md) cs md (Spec.Reinsert.reinsert (ranking P) P.nExam P.nKeep) view perms where
  contents := fun {s} n h => by
    show ((viewOf seen s.base s.q).map Seen.entry).Perm _
    rw [viewOf_map]
    exact viewOf_perm_tbl h.q.base.inv.nodup h.q.q
  frame := fun s n a => rfl
  findHit := fun {s s'} r o h ho hf => by
    have hf' : find s r true = .ok (true, s') := hf
    rw [find_hit ho] at hf'
    cases hf'
    refine ⟨?_, rfl, rfl⟩
    simp only [Spec.Reinsert.reinsert]
    unfold view
    simp only
    rw [hit_view]
  evict := fun {s s'} r h hne hf => by
    obtain ⟨s1, v, h1, h2, h0, h3, h4, h5, h6, _⟩ := evict_spec hP hk h hne
    have hf' : evict P s = .ok s' := hf
    rw [h1] at hf'
    cases hf'
    exact ⟨h4, h5, h6⟩
  insert := fun {s s'} r h hn hroom hsz hf => by
    obtain ⟨s1, h1, h2, h3, h4, h5, h6⟩ := insert_spec h hn hroom hsz
    have hf' : insert s r = .ok s' := hf
    rw [h1] at hf'
    cases hf'
    exact ⟨h4, h5, h6⟩
  remove := fun h => by cases h

/-- The state without request counter and admission policy. -/
def core (s : State) : Quiet Meta × List ObjId × Ptr × List Nat := (s.base.quiet, s.q, s.next, s.picks)

theorem remove_spec (h : Inv cs md s) (id : ObjId) :
    ∃ s', remove s id = .ok (decide (id ∈ s.base.cached.ids), s') ∧ s'.base.cached.Perm (s.base.cached.filter (fun x => x.1 ≠ id)) := by
  unfold remove
  cases hl : s.base.lookup id with
  | none =>
    have hn := lookup_none_iff'.1 hl
    exact ⟨s, by simp [Spec.Contents.ids, hn], by rw [filter_ids_eq hn]⟩
  | some o =>
    have hm : id ∈ s.q := (h.q.mem_iff id).2 ⟨o, hl⟩
    have hin : id ∈ s.base.cached.ids := by
      have : (s.base.lookup id).isSome = true := by simp [hl]
      rw [lookup_isSome_iff] at this; simpa using this
    obtain ⟨s', n, k1, _, k3, _⟩ := drop_spec h.q hm
    refine ⟨s', by simp [k1, hin], ?_⟩
    have hnd : s.base.cached.ids.Nodup := by rw [Spec.Contents.ids, map_id_eq]; exact h.q.base.inv.nodup
    exact filter_cons_self hnd k3

/-! ### A cache that never holds more objects than are examined -/

/-- No scan has ever been made: the pointer is null or at the tail. -/
structure Small (P : Params) (cs md b : Nat) (s : State) : Prop where
  inv : Inv cs md s
  tail : s.next = .null ∨ ∃ l t, s.q = l ++ [t] ∧ s.next = .to t
  big : ∀ x ∈ s.base.cached, b ≤ x.2 + md

theorem Small.few {b : Nat} (hc : cs < (P.nExam + 1) * b) (h : Small P cs md b s) : s.base.nObj ≤ P.nExam :=
  FIFOMerge.Small.few (s := { base := s.base, q := s.q, next := .null, list := [], pos := P.nExam, picks := [] }) hc ⟨h.inv.q, rfl, rfl, Nat.le_refl _, h.big⟩

def order (s : State) : Spec.Contents := (viewOf seen s.base s.q).map Seen.entry

theorem small_evict {b : Nat} (hc : cs < (P.nExam + 1) * b) (h : Small P cs md b s) (hne : s.base.tbl ≠ []) :
    ∃ s' v, evict P s = .ok s' ∧ Small P cs md b s' ∧ s.base.cached.Perm (v :: s'.base.cached) ∧ s'.base.adm = s.base.adm ∧ order s' = (order s).dropLast := by
  have hqne : s.q ≠ [] := by
    intro e
    have := len_q h.inv.q
    rw [e] at this
    exact hne (List.length_eq_zero_iff.1 this.symm)
  obtain ⟨l, t, hq⟩ : ∃ l t, s.q = l ++ [t] := by
    rcases List.eq_nil_or_concat s.q with e | ⟨l, t, e⟩
    · exact absurd e hqne
    · exact ⟨l, t, by rw [e, List.concat_eq_append]⟩
  obtain ⟨e1, e2, e3⟩ := start_same s
  have hst : (start s).next = .to t := by
    unfold start
    rcases h.tail with e | ⟨l', t', hq', e⟩
    · rw [e]; simp only [hq, List.getLast?_append, List.getLast?_singleton, Option.some_or]; rfl
    · rw [e]
      rw [hq] at hq'
      have := List.append_inj' hq' rfl
      rw [e]
      have h2 := this.2
      simp at h2
      rw [h2]
  have hqi : QInv cs md (qs (start s)) := by unfold qs; rw [e1, e2]; exact h.inv.q
  have hnd : (l ++ [t]).Nodup := by rw [← hq]; exact h.inv.q.nodup
  have htl : t ∉ l := by
    rw [List.nodup_append] at hnd
    exact fun ht => hnd.2.2 t ht t (by simp) rfl
  obtain ⟨s', n, k1, k2, k3, k4, k5, k6, k7, k8, k9⟩ := drop_spec (v := t) hqi (by rw [e2, hq]; simp)
  have hq' : s'.q = l := by
    rw [k4, e2, hq, List.erase_append_right _ htl]
    simp
  have hrev : s.q.reverse = [] ++ t :: l.reverse := by rw [hq]; simp
  have hprev : Sieve.prevOf (start s).q t = l.getLast? := by
    rw [e2, Sieve.prevOf_rev hrev h.inv.q.nodup, List.head?_reverse]
  have htail : ({ s' with next := ptr l.getLast? } : State).next = .null ∨ ∃ l' t', s'.q = l' ++ [t'] ∧ ({ s' with next := ptr l.getLast? } : State).next = .to t' := by
    rcases List.eq_nil_or_concat l with e | ⟨l', t', e⟩
    · left; rw [e]; rfl
    · right; rw [List.concat_eq_append] at e
      refine ⟨l', t', by rw [hq', e], ?_⟩
      simp [e, ptr]
  refine ⟨{ s' with next := ptr l.getLast? }, (t, n), ?_, ⟨⟨k2, ?_⟩, htail, ?_⟩, by rw [e1] at k3; exact k3, by rw [k7, e1], ?_⟩
  · unfold evict
    rw [e1, if_pos (h.few hc)]
    unfold evictOne
    rw [hst]
    simp only [k1, Res.bind_ok, hprev]
  · rcases htail with e | ⟨l', t', a, e⟩
    · exact .inl e
    · exact .inr ⟨t', by simp only [a]; simp, e⟩
  · intro x hx
    rw [e1] at k3
    exact h.big x (k3.symm.subset (List.mem_cons_of_mem _ hx))
  · unfold order
    simp only
    rw [k9, e1, e2, FIFOMerge.view_dropLast (Full.q h.inv.q) h.inv.q.nodup hq, List.map_dropLast]

theorem small_spec (P : Params) (cs md b : Nat) (hc : cs < (P.nExam + 1) * b) :
    SBSpec (algo P) (fun s => s.base) (fun s b => { s with base := b }) (Small P cs md b) cs md perms (FIFOMerge.BigOk md b) where
  base_set := fun _ _ => rfl
  occ := fun _ => rfl
  nObj := fun _ => rfl
  csz := fun _ => rfl
  mdz := fun _ => rfl
  bumpEq := fun _ => rfl
  canEq := fun _ _ => rfl
  fuel := fun _ => Nat.le_refl _
  inv := fun h => h.inv.q.base
  frame := fun n a h => ⟨h.inv.base (h.inv.q.frame n a), h.tail, h.big⟩
  findF := fun r _ => find_false _ r
  findHit := fun {s} r o h ho => by
    have e : ({ s with base := (s.base.modify r.id (touch r)).modify r.id (FIFOMerge.hit s.base.nReq) } : State).base.cached = s.base.cached := by
      simp only
      rw [Base.cached_modify _ _ (FIFOMerge.hit s.base.nReq) (fun _ => rfl) (fun _ => rfl), Base.cached_modify _ _ (touch r) (fun _ => rfl) (fun _ => rfl)]
    exact ⟨_, find_hit ho, ⟨hit_inv h.inv r, h.tail, by rw [e]; exact h.big⟩, by rw [e]⟩
  findMiss := fun r _ ho => find_miss ho
  evict := fun {s} r h hne _ => by
    obtain ⟨s', v, h1, h2, h3, _⟩ := small_evict hc h hne
    exact ⟨s', v, h1, h2, h3⟩
  insert := fun {s} r h hn hroom hsz => by
    obtain ⟨s', h1, h2, h3, _⟩ := insert_spec h.inv hn hroom hsz.1
    refine ⟨s', h1, ⟨h2, ?_, ?_⟩, by rw [h3]⟩
    · have hnq : r.id ∉ s.q := h.inv.q.notMem_of_lookup (show (qs s).base.lookup r.id = none from hn)
      unfold insert at h1
      simp only [qPrepend, hnq, if_false, Res.bind_ok] at h1
      have h1' := Except.ok.inj h1
      rw [← h1']
      rcases h.tail with e | ⟨l, t, e, e'⟩
      · exact .inl e
      · exact .inr ⟨r.id :: l, t, by simp [e], e'⟩
    · rw [h3]
      intro x hx
      rcases List.mem_cons.1 hx with rfl | hx
      · exact hsz.2
      · exact h.big x hx
  removeMiss := fun h => by cases h
  removeHit := fun h => by cases h

theorem small_sim (P : Params) (cs md b : Nat) (hc : cs < (P.nExam + 1) * b) :
    Sim (algo P) (fun s => s.base) (fun s b => { s with base := b }) (Small P cs md b) cs md Spec.fifo order perms (FIFOMerge.BigOk md b) where
  contents := fun {s} h => by
    show (order s).Perm _
    unfold order
    rw [viewOf_map]
    exact viewOf_perm_tbl h.inv.q.base.inv.nodup h.inv.q.q
  frame := fun s n a => rfl
  findHit := fun {s s'} r o h ho hf => by
    have hf' : find s r true = .ok (true, s') := hf
    rw [find_hit ho] at hf'
    cases hf'
    refine ⟨?_, rfl⟩
    show order _ = order s
    unfold order
    simp only
    rw [hit_view, List.map_map]
    apply List.map_congr_left
    intro x _
    by_cases hx : x.id = r.id <;> simp [hx, Seen.entry]
  evict := fun {s s'} r h hne hf => by
    obtain ⟨s1, v, h1, h2, h3, h4, h5⟩ := small_evict hc h hne
    have hf' : evict P s = .ok s' := hf
    rw [h1] at hf'
    cases hf'
    exact ⟨h5, h4⟩
  insert := fun {s s'} r h hn hroom hsz hf => by
    obtain ⟨s1, h1, h2, h3, h4, h5, _⟩ := insert_spec h.inv hn hroom hsz.1
    have hf' : insert s r = .ok s' := hf
    rw [h1] at hf'
    cases hf'
    refine ⟨?_, h5⟩
    have := congrArg St.queue h4
    simp only [view] at this
    show order _ = _ :: order s
    unfold order
    rw [this]; rfl
  remove := fun {s s'} id o h ho hf => by
    have hm : id ∈ s.q := (h.inv.q.mem_iff id).2 ⟨o, ho⟩
    obtain ⟨s1, n, k1, k2, k3, k4, k5, k6, k7, k8, k9⟩ := drop_spec h.inv.q hm
    have hf' : remove s id = .ok (true, s') := hf
    have ho' : s.base.lookup id = some o := ho
    unfold remove at hf'
    rw [ho', k1] at hf'
    cases hf'
    refine ⟨?_, k7⟩
    show order _ = (order s).filter _
    unfold order
    rw [k9]
    unfold Spec.Merge.drop
    rw [List.filter_map]; rfl

theorem small_init (P : Params) (cs md b : Nat) (adm : Adm) (picks : List Nat) : Small P cs md b (init cs md adm picks) :=
  ⟨inv_init cs md adm picks, .inl rfl, by simp [init, Base.init, Base.cached]⟩

/-! ### A scan -/

theorem road_window (t : St) (n : Nat) : (road t).take n = Spec.Merge.window n ⟨t.queue, t.hand, [], t.draws⟩ := by
  unfold road ahead Spec.Merge.window Spec.Merge.ahead
  cases t.hand <;> rfl

theorem foldl_drop (l : List ObjId) (q : List Seen) : l.foldl Spec.Merge.drop q = q.filter (fun x => decide (x.id ∉ l)) := by
  induction l generalizing q with
  | nil => simp
  | cons a l ih =>
    rw [List.foldl_cons, ih]
    unfold Spec.Merge.drop
    rw [List.filter_filter]
    apply List.filter_congr
    intro x _
    simp only [List.mem_cons, not_or, Bool.decide_and, Bool.and_comm, decide_not]

theorem filter_one {q : List Seen} (hn : (q.map Seen.id).Nodup) {a : ObjId} (ha : a ∈ q.map Seen.id) : (q.filter (fun x => decide (x.id = a))).map Seen.id = [a] := by
  have h1 : (q.map Seen.id).filter (fun x => x == a) = [a] := by rw [List.filter_beq, List.count_eq_one_of_mem hn ha]; rfl
  rw [← h1, List.filter_map]
  rfl

theorem foldl_front (l : List ObjId) (q : List Seen) (hl : l.Nodup) (hq : (q.map Seen.id).Nodup) (hin : ∀ i ∈ l, i ∈ q.map Seen.id) :
    (l.foldl toFront q).map Seen.id = l.reverse ++ (q.map Seen.id).filter (fun i => decide (i ∉ l)) := by
  induction l generalizing q with
  | nil => simp
  | cons a l ih =>
    rw [List.nodup_cons] at hl
    have ha := hin a (by simp)
    have e : (toFront q a).map Seen.id = a :: (q.map Seen.id).filter (fun i => decide (i ≠ a)) := by
      unfold toFront
      rw [List.map_append, List.map_map, show (Seen.id ∘ halve) = Seen.id from rfl, filter_one hq ha]
      unfold Spec.Merge.drop
      rw [List.filter_map]; rfl
    rw [List.foldl_cons, ih (toFront q a) hl.2, e]
    · rw [List.filter_cons_of_pos (by simp [hl.1]), List.filter_filter, List.reverse_cons, List.append_assoc, List.singleton_append]
      congr 2
      apply List.filter_congr
      intro x _
      simp only [List.mem_cons, not_or, Bool.decide_and, Bool.and_comm, decide_not, ne_eq]
    · rw [e, List.nodup_cons]
      exact ⟨by simp, hq.filter _⟩
    · intro i hi
      rw [e]
      have : i ≠ a := by rintro rfl; exact hl.1 hi
      simp only [List.mem_cons, List.mem_filter, decide_eq_true_eq]
      exact .inr ⟨hin i (by simp [hi]), this⟩

/-- A scan: the kept objects, the highest ranked first, then the rest of the queue. -/
theorem scan_order (P : Params) {t : St} (now : Nat) (hid : (t.queue.map Seen.id).Nodup) (hlt : P.nExam < t.queue.length) (hhand : ∀ h, t.hand = some h → h ∈ t.queue.map Seen.id) :
    (Spec.Reinsert.evict (ranking P) P.nExam P.nKeep now t).queue.map Seen.id =
      ((ranked (ranking P) P.nExam now t).drop (P.nExam - P.nKeep)).reverse ++ (t.queue.map Seen.id).filter (fun i => decide (i ∉ ((road t).take P.nExam).map Seen.id)) := by
  obtain ⟨hsub, hnd, hlen⟩ := FIFOMerge.window_ok (t := ⟨t.queue, t.hand, [], t.draws⟩) P.nExam hid hlt hhand
  rw [← road_window] at hsub hnd hlen
  have hr : (ranked (ranking P) P.nExam now t).Perm (((road t).take P.nExam).map Seen.id) := by
    unfold ranked
    refine (FIFOMerge.order_perm P _).trans (List.Perm.of_eq ?_)
    exact ranks_ids (ranking P) now _ _
  unfold Spec.Reinsert.evict
  rw [if_neg (by omega)]
  simp only
  generalize ranked (ranking P) P.nExam now t = R at hr
  have hRn : R.Nodup := hr.nodup_iff.2 hnd
  have hsplit := List.take_append_drop (P.nExam - P.nKeep) R
  have hRn' := hRn
  rw [← hsplit, List.nodup_append] at hRn'
  obtain ⟨_, hdn, hdis⟩ := hRn'
  rw [foldl_drop]
  have e : ((t.queue.filter (fun x => decide (x.id ∉ R.take (P.nExam - P.nKeep)))).map Seen.id) = (t.queue.map Seen.id).filter (fun i => decide (i ∉ R.take (P.nExam - P.nKeep))) := by
    rw [List.filter_map]; rfl
  rw [foldl_front _ _ hdn, e]
  · rw [List.filter_filter]
    congr 1
    apply List.filter_congr
    intro x _
    rw [← Bool.decide_and]
    apply decide_eq_decide.2
    rw [← not_or, ← hr.mem_iff]
    conv => rhs; rw [← hsplit]
    rw [List.mem_append]
    tauto
  · rw [e]; exact hid.filter _
  · intro i hi
    rw [e]
    simp only [List.mem_filter, decide_eq_true_eq]
    refine ⟨?_, fun hi' => hdis i hi' i hi rfl⟩
    obtain ⟨x, hx, rfl⟩ := List.mem_map.1 (hr.subset (List.mem_of_mem_drop hi))
    exact List.mem_map_of_mem (hsub x hx)

/-! ### The hand stays at the oldest object -/

/-- The hand is at the oldest object. -/
def Oldest (t : St) : Prop := t.hand = none ∨ ∃ l i, t.queue.map Seen.id = l ++ [i] ∧ t.hand = some i

theorem ahead_oldest {t : St} (h : Oldest t) : ahead t = t.queue.reverse := by
  unfold ahead
  rcases h with e | ⟨l, i, hq, e⟩
  · rw [e]
  · rw [e]
    obtain ⟨a, x, he⟩ : ∃ a x, t.queue = a ++ [x] := by
      rcases List.eq_nil_or_concat t.queue with he | ⟨a, x, he⟩
      · rw [he] at hq; simp at hq
      · exact ⟨a, x, by rw [he, List.concat_eq_append]⟩
    rw [he] at hq ⊢
    rw [List.map_append] at hq
    have := (List.append_inj' hq rfl).2
    simp at this
    simp only [List.reverse_append, List.reverse_cons, List.reverse_nil, List.nil_append, List.singleton_append]
    rw [List.dropWhile_cons_of_neg (by simp [this])]

theorem evict_oldest (P : Params) {t : St} (now : Nat) (hid : (t.queue.map Seen.id).Nodup) (h : Oldest t) :
    Oldest (Spec.Reinsert.evict (ranking P) P.nExam P.nKeep now t) := by
  have ha := ahead_oldest h
  by_cases hl : t.queue.length ≤ P.nExam
  · unfold Spec.Reinsert.evict
    rw [if_pos hl, ha]
    cases hr : t.queue.reverse with
    | nil => exact h
    | cons x l =>
      have hq : t.queue = l.reverse ++ [x] := by rw [← List.reverse_reverse t.queue, hr]; simp
      have hd : Spec.Merge.drop t.queue x.id = l.reverse := by
        rw [hq, List.map_append, List.nodup_append] at hid
        unfold Spec.Merge.drop
        rw [hq, List.filter_append, List.filter_eq_self.2]
        · simp
        · intro y hy
          have := hid.2.2 y.id (List.mem_map_of_mem hy) x.id (by simp)
          simpa using this
      simp only [hd]
      cases l with
      | nil => exact .inl rfl
      | cons y l => exact .inr ⟨(l.reverse).map Seen.id, y.id, by simp, rfl⟩
  · have hlt : P.nExam < t.queue.length := by omega
    have hh : ∀ i, t.hand = some i → i ∈ t.queue.map Seen.id := by
      intro i hi
      rcases h with e | ⟨l, j, hq, e⟩
      · rw [e] at hi; cases hi
      · rw [e] at hi; cases hi; rw [hq]; simp
    have hso := scan_order P now hid hlt hh
    obtain ⟨y, hy⟩ : ∃ y, t.queue.reverse[P.nExam]? = some y := ⟨_, List.getElem?_eq_getElem (by simpa using hlt)⟩
    obtain ⟨W, Z, hr, hw⟩ : ∃ W Z, t.queue.reverse = W ++ y :: Z ∧ W.length = P.nExam := by
      refine ⟨t.queue.reverse.take P.nExam, t.queue.reverse.drop (P.nExam + 1), ?_, by simp; omega⟩
      have hlt' : P.nExam < t.queue.reverse.length := by simpa using hlt
      rw [List.getElem?_eq_getElem hlt'] at hy
      cases hy
      rw [← List.drop_eq_getElem_cons hlt', List.take_append_drop]
    have hroad : (road t).take P.nExam = W := by
      unfold road
      rw [ha, hr, List.append_assoc, ← hw, List.take_left]
    have hhand : (Spec.Reinsert.evict (ranking P) P.nExam P.nKeep now t).hand = some y.id := by
      unfold Spec.Reinsert.evict
      rw [if_neg hl]
      simp only
      unfold road
      rw [ha, List.getElem?_append_left (by simpa using hlt), hy]
      rfl
    right
    refine ⟨((ranked (ranking P) P.nExam now t).drop (P.nExam - P.nKeep)).reverse ++ (Z.reverse).map Seen.id, y.id, ?_, hhand⟩
    rw [hso, hroad]
    have hq : t.queue = Z.reverse ++ y :: W.reverse := by rw [← List.reverse_reverse t.queue, hr]; simp
    rw [hq] at hid ⊢
    rw [List.map_append, List.map_cons] at hid
    have hid' := List.nodup_append.1 hid
    have hyw := (List.nodup_cons.1 hid'.2.1).1
    rw [List.map_append, List.map_cons, List.filter_append, List.append_assoc]
    congr 1
    rw [List.filter_eq_self.2, List.filter_cons_of_pos, List.filter_eq_nil_iff.2]
    · intro i hi
      simpa using hi
    · simpa using hyw
    · intro i hi
      have := hid'.2.2 i hi
      simp only [decide_eq_true_eq]
      intro hi'
      refine this i ?_ rfl
      refine List.mem_cons_of_mem _ ?_
      simpa using hi'

/-- The state invariant with the place of the hand. -/
def Inv' (cs md : Nat) (s : State) : Prop := Inv cs md s ∧ Oldest (view s)

theorem view_nodup (h : Inv cs md s) : ((view s).queue.map Seen.id).Nodup := by
  show ((viewOf seen s.base s.q).map Seen.id).Nodup
  rw [view_ids (Full.q h.q)]
  exact h.q.nodup

theorem spec' (P : Params) (hP : P.policy ≠ .none) (hk : P.nKeep < P.nExam) (cs md : Nat) :
    SBMulti (algo P) (fun s => s.base) (fun s b => { s with base := b }) (Inv' cs md) cs md perms where
  base_set := fun _ _ => rfl
  occ := fun _ => rfl
  nObj := fun _ => rfl
  csz := fun _ => rfl
  mdz := fun _ => rfl
  bumpEq := fun _ => rfl
  canEq := fun _ _ => rfl
  fuel := fun _ => Nat.le_refl _
  inv := fun h => h.1.q.base
  frame := fun n a h => ⟨h.1.base (h.1.q.frame n a), h.2⟩
  findF := fun r _ => find_false _ r
  findHit := fun {s} r o h ho => by
    refine ⟨_, find_hit ho, ⟨hit_inv h.1 r, ?_⟩, ?_⟩
    · have e : (viewOf seen ((s.base.modify r.id (touch r)).modify r.id (FIFOMerge.hit s.base.nReq)) s.q).map Seen.id = (viewOf seen s.base s.q).map Seen.id := by
        rw [hit_view, List.map_map]
        apply List.map_congr_left
        intro x _
        by_cases hx : x.id = r.id <;> simp [hx]
      rcases h.2 with h2 | ⟨l, i, h2, h3⟩
      · exact .inl h2
      · exact .inr ⟨l, i, e.trans h2, h3⟩
    · simp only
      rw [Base.cached_modify _ _ (FIFOMerge.hit s.base.nReq) (fun _ => rfl) (fun _ => rfl), Base.cached_modify _ _ (touch r) (fun _ => rfl) (fun _ => rfl)]
  findMiss := fun r _ ho => find_miss ho
  evict := fun {s} r h hne _ => by
    obtain ⟨s', vs, h1, h2, h3, h4, h5, _⟩ := evict_spec hP hk h.1 hne
    exact ⟨s', vs, h1, ⟨h2, by rw [h5]; exact evict_oldest P _ (view_nodup h.1) h.2⟩, h3, h4⟩
  insert := fun {s} r h hn hroom hsz => by
    obtain ⟨s', h1, h2, h3, h4, _⟩ := insert_spec h.1 hn hroom hsz
    refine ⟨s', h1, ⟨h2, ?_⟩, by rw [h3]⟩
    rw [h4]
    rcases h.2 with h5 | ⟨l, i, h5, h6⟩
    · exact .inl h5
    · exact .inr ⟨r.id :: l, i, by simp [h5], h6⟩
  removeMiss := fun h => by cases h
  removeHit := fun h => by cases h

end Verif.FIFOReinsertion
