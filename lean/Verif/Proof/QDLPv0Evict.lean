import Verif.Proof.QDLPv0
/-!
# QDLPv0: evictions
-/

namespace Verif.QDLPv0
open Verif Spec
open Verif.Spec.QuickDemotion (Queues Sizes newestWithin shrinkMain)

section
variable {z : Sizes} {a : Queues} {s : State} {b : Base Meta}

theorem ids_entry (l : List Item) : ids l = (l.map Item.entry).map Prod.fst := by
  simp [ids, Item.entry]

theorem Tab.resplit (h : Tab z a b) {t : SieveState} (e : items t = items a.main) : Tab z { a with main := t } b :=
  ⟨h.nodup, by simp only [allIds, e]; exact h.tbl, h.hf, by simp only [e]; exact h.hm, h.hg, h.small, h.csz, h.mdz⟩

def dec : Obj Meta → Obj Meta := fun o => { o with mt := ⟨o.mt.place, o.mt.freq - 1⟩ }

def less (x : Item) : Item := { x with cnt := x.cnt - 1 }

theorem Tab.step (h : Tab z a b) {A B : List Item} {x : Item} (hm : a.main = ⟨A, x :: B⟩) :
    Tab z { a with main := ⟨A ++ [less x], B⟩ } (b.modify x.id dec) := by
  obtain ⟨_, hn, _, hd1, hd2⟩ := nd_parts (s := { init 0 0 0 .none with base := b }) h
  have e0 : items a.main = A ++ x :: B := by rw [hm]; rfl
  have e1 : items ⟨A ++ [less x], B⟩ = A ++ less x :: B := by simp [items]
  have hx : x ∈ items a.main := by rw [e0]; simp
  have hxi : x.id ∈ ids (items a.main) := List.mem_map_of_mem hx
  have hids : ids (A ++ less x :: B) = ids (A ++ x :: B) := by simp [ids, less]
  rw [e0] at hn
  simp only [ids, List.map_append, List.map_cons] at hn
  rw [List.nodup_append] at hn
  obtain ⟨_, h2, h3⟩ := hn
  rw [List.nodup_cons] at h2
  refine h.modify x.id dec (fun _ => rfl) (fun _ => rfl) ?_ ?_ ?_ ?_
  · simp only [allIds, e1, e0, hids]; exact List.Perm.refl _
  · intro y hy
    refine (h.hf y hy).hasIf ?_
    intro e
    exact (hd1 y.id (List.mem_map_of_mem hy)).1 (by rw [e]; exact hxi)
  · rw [e1]
    intro y hy
    rcases List.mem_append.1 hy with hy | hy
    · refine (h.hm y (by rw [e0]; simp [hy])).hasIf ?_
      intro e
      exact h3 y.id (List.mem_map_of_mem hy) x.id (by simp) e
    · rcases List.mem_cons.1 hy with rfl | hy
      · obtain ⟨o, k1, k2, k3⟩ := h.hm x hx
        refine ⟨o, k1, k2, ?_⟩
        show (if x.id = x.id then (dec o).mt else o.mt) = _
        rw [if_pos rfl]
        show (⟨o.mt.place, o.mt.freq - 1⟩ : Meta) = _
        rw [k3]; rfl
      · refine (h.hm y (by rw [e0]; simp [hy])).hasIf ?_
        intro e
        exact h2.1 (by rw [← e]; exact List.mem_map_of_mem hy)
  · intro y hy
    obtain ⟨o, k1, k2, k3⟩ := h.hg y hy
    refine ⟨o, k1, k2, ?_⟩
    rw [if_neg]
    · exact k3
    · intro e
      exact hd2 x.id hxi (by rw [← e]; exact List.mem_map_of_mem hy)

theorem less_sum (A B : List Item) (x : Item) (hx : 0 < x.cnt) :
    ((A ++ less x :: B).map Item.cnt).sum < ((A ++ x :: B).map Item.cnt).sum := by
  simp [less]; omega

theorem scan_spec : ∀ n (a : Queues) (b : Base Meta) (q : List ObjId) (k : Nat) (A : List Item) (x : Item) (B : List Item), Tab z a b →
    a.main = ⟨A, x :: B⟩ → q.reverse = ids (A ++ x :: B) → (∀ y ∈ A ++ x :: B, y.cnt ≤ 1) → ((A ++ x :: B).map Item.cnt).sum < n → k ≤ 1 →
    (k = 1 → ∀ y, (x :: B).getLast? = some y → y.cnt = 0) →
    ∃ A' v B' b', scan n b q k x.id = .ok (v.id, b') ∧ Tab z { a with main := ⟨A', v :: B'⟩ } b' ∧ v.cnt = 0 ∧
      (A' ++ v :: B').map Item.entry = (A ++ x :: B).map Item.entry ∧ (∀ y ∈ A' ++ v :: B', y.cnt ≤ 1) ∧
      sieveScan n ⟨A, x :: B⟩ = (SieveState.mk A' B').wrap ∧ b'.nReq = b.nReq ∧ b'.adm = b.adm ∧ b'.occ = b.occ ∧ b'.nObj = b.nObj := by
  intro n
  induction n with
  | zero => intro _ _ _ _ _ _ _ _ _ _ _ h; omega
  | succ n ih =>
    intro a b q k A x B h hm hq hb hlt hk hlast
    have e0 : items a.main = A ++ x :: B := by rw [hm]; rfl
    obtain ⟨o, ho, ho2, ho3⟩ := h.hm x (by rw [e0]; simp)
    have hfr : o.mt.freq = x.cnt := by rw [ho3]
    by_cases hz : x.cnt = 0
    · refine ⟨A, x, B, b, ?_, ?_, hz, rfl, hb, ?_, rfl, rfl, rfl, rfl⟩
      · simp [scan, ho, hfr, hz]
      · exact h.resplit (by rw [e0]; rfl)
      · simp only [sieveScan, Sieve.wrap_cons, if_pos hz]
    · have hpos : x.cnt > 0 := by omega
      have hqn : q.Nodup := by
        obtain ⟨_, hn, _, _, _⟩ := nd_parts (s := { init 0 0 0 .none with base := b }) h
        rw [e0, ← hq] at hn; exact List.nodup_reverse.1 hn
      have hprev : Sieve.prevOf q x.id = (ids B).head? := Sieve.prevOf_rev (A := ids A) (by rw [hq]; simp [ids]) hqn
      have h1 := h.step hm
      have hsum := less_sum A B x hpos
      have hb1 : ∀ y ∈ A ++ less x :: B, y.cnt ≤ 1 := by
        intro y hy
        rcases List.mem_append.1 hy with hy | hy
        · exact hb y (by simp [hy])
        · rcases List.mem_cons.1 hy with rfl | hy
          · have := hb x (by simp)
            show x.cnt - 1 ≤ 1
            omega
          · exact hb y (by simp [hy])
      have hent : (A ++ less x :: B).map Item.entry = (A ++ x :: B).map Item.entry := by simp [less, Item.entry]
      have hids : ids (A ++ less x :: B) = ids (A ++ x :: B) := by simp [ids, less]
      have hspec : sieveScan (n + 1) ⟨A, x :: B⟩ = sieveScan n ⟨A ++ [less x], B⟩ := by
        simp only [sieveScan, Sieve.wrap_cons, if_neg hz, less]
      cases B with
      | cons p B =>
        obtain ⟨A', v, B', b', k1, k2, k3, k4, k5, k6, k7, k8, k9, k10⟩ := ih { a with main := ⟨A ++ [less x], p :: B⟩ } (b.modify x.id dec) q k (A ++ [less x]) p B h1 rfl
          (by rw [hq, ← hids]; simp) (by simpa using hb1) (by
            have e : A ++ [less x] ++ p :: B = A ++ less x :: p :: B := by simp
            rw [e]; omega) hk
          (by intro hk1 y hy; exact hlast hk1 y (by rw [List.getLast?_cons_cons]; exact hy))
        refine ⟨A', v, B', b', ?_, k2, k3, ?_, k5, by rw [hspec]; exact k6, k7, k8, k9, k10⟩
        · rw [scan]; simp only [ho, hfr, hpos, if_true, hprev, ids, List.map_cons, List.head?_cons]; exact k1
        · rw [k4, ← hent]; simp
      | nil =>
        have hk0 : k = 0 := by
          rcases Nat.lt_or_ge k 1 with h | h
          · omega
          · exact absurd (hlast (by omega) x rfl) hz
        subst hk0
        have hne : A ++ [less x] ≠ [] := by simp
        obtain ⟨t, T, hT⟩ := List.exists_cons_of_ne_nil hne
        have h1' : Tab z { a with main := ⟨[], t :: T⟩ } (b.modify x.id dec) := by
          refine h1.resplit (t := ⟨[], t :: T⟩) ?_
          simp [items, hT]
        have hsp : q.reverse = ids (t :: T) := by rw [hq, ← hT, ← hids]
        have htail : qTail q = .ok t.id := by
          have : q = (ids T).reverse ++ [t.id] := by
            have := congrArg List.reverse hsp; simpa [ids] using this
          simp [qTail, this]
        obtain ⟨A', v, B', b', k1, k2, k3, k4, k5, k6, k7, k8, k9, k10⟩ := ih { a with main := ⟨[], t :: T⟩ } (b.modify x.id dec) q 1 [] t T h1' rfl
          (by simpa using hsp) (by rw [List.nil_append, ← hT]; exact hb1) (by rw [List.nil_append, ← hT]; omega) (Nat.le_refl 1) (by
            intro _ y hy
            rw [← hT] at hy
            simp only [List.getLast?_append, List.getLast?_singleton, Option.some_or, Option.some.injEq] at hy
            rw [← hy]
            have := hb x (by simp)
            show x.cnt - 1 = 0
            omega)
        refine ⟨A', v, B', b', ?_, k2, k3, ?_, k5, ?_, k7, k8, k9, k10⟩
        · rw [scan]
          simp only [ho, hfr, hpos, if_true, hprev, ids, List.map_nil, List.head?_nil, htail, Res.bind_ok]
          exact k1
        · rw [k4, List.nil_append, ← hT, hent]
        · rw [hspec, Sieve.sieveScan_wrap _ _ hne, if_neg (by omega), hT]; exact k6

/-- what no eviction touches -/
def Same (s s' : State) : Prop := s'.base.nReq = s.base.nReq ∧ s'.base.adm = s.base.adm ∧ s'.vtime = s.vtime

theorem Same.rfl (s : State) : Same s s := ⟨Eq.refl _, Eq.refl _, Eq.refl _⟩
theorem Same.trans {s s' s'' : State} (h : Same s s') (h' : Same s' s'') : Same s s'' := ⟨h'.1.trans h.1, h'.2.1.trans h.2.1, h'.2.2.trans h.2.2⟩

theorem fuel_eq (h : Abs z a s) : scanFuel s = ((items a.main).map Item.cnt).sum + 1 := by
  have e : s.clock.map (fun id => ((s.base.lookup id).map (fun o => o.mt.freq)).getD 0) = (items a.main).reverse.map Item.cnt := by
    have : s.clock = (items a.main).reverse.map Item.id := by
      have := congrArg List.reverse h.qm
      simpa [ids, List.map_reverse] using this
    rw [this, List.map_map]
    refine List.map_congr_left ?_
    intro x hx
    obtain ⟨o, h1, _, h3⟩ := h.tab.hm x (List.mem_reverse.1 hx)
    simp [h1, h3]
  rw [scanFuel, e, List.map_reverse, List.sum_reverse]

/-- An eviction from the main queue is an eviction of SIEVE. -/
theorem Abs.clockEvict (h : Abs z a s) (hne : items a.main ≠ []) :
    ∃ s' v, clockEvict s = .ok s' ∧ Abs z { a with main := sieve.evict a.main } s' ∧ Same s s' ∧
      ((items a.main).map Item.entry).Perm (v :: (items (sieve.evict a.main)).map Item.entry) := by
  -- the hand
  obtain ⟨x, B, hx, hst⟩ : ∃ x B, a.main.ahead = x :: B ∧ startOf s = .ok x.id := by
    rcases h.hand with ⟨h1, h2⟩ | ⟨x, l, h1, h2⟩
    · have : items a.main = a.main.ahead := by simp [items, h2]
      rw [this] at hne
      obtain ⟨x, B, hx⟩ := List.exists_cons_of_ne_nil hne
      refine ⟨x, B, hx, ?_⟩
      have hsp : s.clock.reverse = ids (x :: B) := by rw [h.qm, this, hx]
      have : s.clock = (ids B).reverse ++ [x.id] := by
        have := congrArg List.reverse hsp; simpa [ids] using this
      simp [startOf, h1, qTail, this]
    · exact ⟨x, l, h1, by simp [startOf, h2]⟩
  obtain ⟨A, hA⟩ : ∃ A, a.main.passed = A := ⟨_, rfl⟩
  have hm : a.main = ⟨A, x :: B⟩ := by rw [← hA, ← hx]
  have e0 : items a.main = A ++ x :: B := by rw [hm]; rfl
  obtain ⟨A', v, B', b', k1, k2, k3, k4, k5, k6, k7, k8, k9, k10⟩ := scan_spec (scanFuel s) a s.base s.clock 0 A x B h.tab hm
    (by rw [h.qm, e0]) (by rw [← e0]; exact h.bits) (by rw [fuel_eq h, e0]; omega) (by omega) (by omega)
  have hids : ids (A' ++ v :: B') = ids (A ++ x :: B) := by rw [ids_entry, ids_entry, k4]
  have hq : s.clock.reverse = ids A' ++ v.id :: ids B' := by rw [h.qm, e0, ← hids]; simp [ids]
  have hqn : s.clock.Nodup := by
    obtain ⟨_, hn, _, _, _⟩ := nd_parts h.tab
    rw [← h.qm] at hn; exact List.nodup_reverse.1 hn
  have hprev : Sieve.prevOf s.clock v.id = (ids B').head? := Sieve.prevOf_rev hq hqn
  obtain ⟨hnA, hnB⟩ := Sieve.split_notMem hq hqn
  have hvq : v.id ∈ s.clock := by rw [← List.mem_reverse, hq]; simp
  have ei' : items ⟨A', v :: B'⟩ = A' ++ v :: B' := rfl
  obtain ⟨o, ho, ho2, ho3⟩ := k2.hm v (by simp [items])
  have hev : sieve.evict a.main = (SieveState.mk A' B').wrap := by
    show sieveScan (((a.main.passed ++ a.main.ahead).map Item.cnt).sum + 1) a.main = _
    rw [show a.main.passed ++ a.main.ahead = items a.main from Eq.refl _, ← fuel_eq h, ← k6, hm]
  have hiw : items (SieveState.mk A' B').wrap = A' ++ B' := by
    cases B' <;> simp [SieveState.wrap, items]
  have hperm : (A' ++ v :: B').map Item.entry |>.Perm (v.entry :: (A' ++ B').map Item.entry) := by
    simp only [List.map_append, List.map_cons]
    exact List.perm_middle
  have hosz : QDLPv0.osz s o = (v.size + z.md : Nat) := by
    rw [QDLPv0.osz, h.tab.mdz, Nat.mod_eq_of_lt (k2.small o (lookup_some_mem ho).1), ho2]
  have hch : charge z.md ((items a.main).map Item.entry) = (v.size + z.md) + charge z.md ((A' ++ B').map Item.entry) := by
    rw [e0, ← k4, charge_perm hperm]; rfl
  have hln : (items a.main).length = (A' ++ B').length + 1 := by
    have := congrArg List.length k4
    simp only [List.length_map] at this
    rw [e0, ← this]; simp; omega
  refine ⟨{ s with base := { b' with occ := b'.occ - (((o.size + b'.objMd) % u32 : Nat) : Int), nObj := b'.nObj - 1 }.del v.id, clock := s.clock.erase v.id, hand := handOf (Sieve.prevOf s.clock v.id),
                   nClockObj := s.nClockObj - 1, nClockByte := s.nClockByte - QDLPv0.osz s o }, v.entry, ?_, ?_, ⟨k7, k8, Eq.refl _⟩, ?_⟩
  · simp only [QDLPv0.clockEvict, hst, Res.bind_ok, k1, ho, qRemove, if_pos hvq, Base.evictBase, Base.removeObjBase]
  · rw [hev]
    refine ⟨?_, h.qf, ?_, h.qg, ?_, h.bf, ?_, ?_, h.bg, ?_, ?_, ?_, h.fs, h.ms, h.gs⟩
    · refine k2.del v.id ?_ (fun _ h => h) ?_ (fun _ h => h) (Eq.refl _) (Eq.refl _) (Eq.refl _)
      · simp only [allIds, hiw, ei', ids, List.map_append, List.map_cons, List.append_assoc, List.cons_append]
        exact ((List.Perm.append_left _ List.perm_middle)).trans List.perm_middle
      · rw [hiw]
        intro y hy
        refine k2.hm y ?_
        rw [ei']
        rcases List.mem_append.1 hy with hy | hy <;> simp [hy]
    · show (s.clock.erase v.id).reverse = _
      rw [hiw]
      have : s.clock = (ids B').reverse ++ v.id :: (ids A').reverse := by
        have := congrArg List.reverse hq; simpa using this
      rw [this, List.erase_append_right _ (by simpa using hnB), List.erase_cons_head]
      simp [ids]
    · show (handOf _ = _ ∧ _) ∨ _
      rw [hprev]
      cases B' with
      | nil => left; exact ⟨Eq.refl _, Eq.refl _⟩
      | cons p l => right; exact ⟨p, l, Eq.refl _, Eq.refl _⟩
    · show s.nClockObj - 1 = _
      rw [hiw, h.cm, hln]; push_cast; omega
    · show s.nClockByte - QDLPv0.osz s o = _
      rw [hiw, h.bm, hosz, hch]; push_cast; omega
    · show b'.occ - _ = _
      rw [hiw, k9, h.occ, hch, k2.mdz, Nat.mod_eq_of_lt (k2.small o (lookup_some_mem ho).1), ho2]; push_cast; omega
    · show b'.nObj - 1 = _
      rw [hiw, k10, h.nObj, hln]; push_cast; omega
    · rw [hiw]
      intro y hy
      refine k5 y ?_
      rcases List.mem_append.1 hy with hy | hy <;> simp [hy]
  · rw [hev, hiw, e0, ← k4]; exact hperm

/-! ### the loops of an eviction -/

theorem Abs.shrink : ∀ n m (a : Queues) (s : State), Abs z a s → (items a.main).length < n → (items a.main).length ≤ m →
    ∃ s', shrinkClock n s = .ok s' ∧ Abs z { a with main := shrinkMain z m a.main } s' ∧ Same s s' ∧
      ((items (shrinkMain z m a.main)).map Item.entry).Subperm ((items a.main).map Item.entry) := by
  intro n
  induction n with
  | zero => intro _ _ _ _ h; omega
  | succ n ih =>
    intro m a s h hn hm
    have hb : bytes z.md (sieve.contents a.main) = charge z.md ((items a.main).map Item.entry) := bytes_eq_charge _ _
    by_cases hc : charge z.md ((items a.main).map Item.entry) > z.main
    · have hne : items a.main ≠ [] := by intro e; rw [e] at hc; simp [charge] at hc
      obtain ⟨s1, v, k1, k2, k3, k4⟩ := h.clockEvict hne
      have hl := k4.length_eq
      simp only [List.length_map, List.length_cons] at hl
      cases m with
      | zero => omega
      | succ m =>
        obtain ⟨s', j1, j2, j3, j4⟩ := ih m _ s1 k2 (by show (items (sieve.evict a.main)).length < n; omega) (by show (items (sieve.evict a.main)).length ≤ m; omega)
        have e : shrinkMain z (m + 1) a.main = shrinkMain z m (sieve.evict a.main) := by
          rw [shrinkMain, hb, if_pos hc]
        refine ⟨s', ?_, by rw [e]; exact j2, k3.trans j3, ?_⟩
        · rw [shrinkClock, if_pos (by rw [h.bm, h.ms]; exact_mod_cast hc), k1]; exact j1
        · rw [e]
          exact j4.trans ((List.Sublist.subperm (List.sublist_cons_self v _)).trans k4.symm.subperm)
    · have e : shrinkMain z m a.main = a.main := by
        cases m with
        | zero => rfl
        | succ m => rw [shrinkMain, hb, if_neg hc]
      refine ⟨s, ?_, by rw [e]; exact h, Same.rfl s, by rw [e]⟩
      rw [shrinkClock, if_neg (by rw [h.bm, h.ms]; exact_mod_cast hc)]

theorem nw_fits (md : Nat) : ∀ (l : Contents) (g : Nat), charge md l ≤ g → newestWithin md g l = l := by
  intro l
  induction l with
  | nil => intros; rfl
  | cons x l ih =>
    intro g h
    simp only [charge] at h
    rw [newestWithin, if_pos (by omega), ih _ (by omega)]

theorem nw_last (md : Nat) (x : ObjId × Nat) : ∀ (l : Contents) (g : Nat), charge md (l ++ [x]) > g → newestWithin md g (l ++ [x]) = newestWithin md g l := by
  intro l
  induction l with
  | nil =>
    intro g h
    simp only [List.nil_append, charge] at h ⊢
    show (if x.2 + md ≤ g then _ else []) = []
    rw [if_neg (by omega)]
  | cons y l ih =>
    intro g h
    simp only [List.cons_append, charge] at h
    rw [List.cons_append, newestWithin, newestWithin]
    by_cases hy : y.2 + md ≤ g
    · rw [if_pos hy, if_pos hy, ih _ (by omega)]
    · rw [if_neg hy, if_neg hy]

theorem nw_charge (md : Nat) : ∀ (l : Contents) (g : Nat), charge md (newestWithin md g l) ≤ g := by
  intro l
  induction l with
  | nil => intro g; exact Nat.zero_le _
  | cons x l ih =>
    intro g
    rw [newestWithin]
    split
    · next hx =>
      have := ih (g - (x.2 + md))
      simp only [charge]; omega
    · exact Nat.zero_le _

theorem nw_prefix (md : Nat) : ∀ (l : Contents) (g : Nat), newestWithin md g l <+: l := by
  intro l
  induction l with
  | nil => intro g; exact List.prefix_rfl
  | cons x l ih =>
    intro g
    rw [newestWithin]
    split
    · exact List.prefix_cons_inj x |>.2 (ih _)
    · exact List.nil_prefix

theorem Abs.trim : ∀ n (a : Queues) (s : State), Abs z a s → a.ghosts.length < n →
    ∃ s', trimGhost n s = .ok s' ∧ Abs z { a with ghosts := newestWithin z.md z.main a.ghosts } s' ∧ Same s s' := by
  intro n
  induction n with
  | zero => intro _ _ _ h; omega
  | succ n ih =>
    intro a s h hn
    by_cases hc : charge z.md a.ghosts > z.main
    · obtain ⟨d, x, hx⟩ := Lists.last_of_pos (md := z.md) (c := a.ghosts) (by omega)
      have hxm : x ∈ a.ghosts := by rw [hx]; simp
      obtain ⟨o, ho, _, _⟩ := h.tab.hg x hxm
      obtain ⟨_, _, hng, _, _⟩ := nd_parts h.tab
      obtain ⟨s1, k1, k2, k3, k4, k5⟩ := h.dropGhost hxm ho
      have hf : a.ghosts.filter (fun y => y.1 ≠ x.1) = d := by
        rw [hx]; rw [hx] at hng; exact Lists.without_last hng
      rw [hf] at k2
      obtain ⟨s', j1, j2, j3⟩ := ih _ s1 k2 (by
        show d.length < n
        rw [hx] at hn; simp at hn; omega)
      refine ⟨s', ?_, ?_, Same.trans ⟨k3, k4, k5⟩ j3⟩
      · have htail : qTail s.ghost = .ok x.1 := by
          rw [h.qg, hx]; simp [qTail, Contents.ids]
        rw [trimGhost, if_pos (by rw [h.bg, h.gs]; exact_mod_cast hc)]
        simp only [htail, Res.bind_ok, ho, k1]
        exact j1
      · have : newestWithin z.md z.main a.ghosts = newestWithin z.md z.main d := by
          rw [hx, nw_last]; rw [← hx]; exact hc
        rw [this]; exact j2
    · refine ⟨s, ?_, ?_, Same.rfl s⟩
      · rw [trimGhost, if_neg (by rw [h.bg, h.gs]; exact_mod_cast hc)]
      · rw [nw_fits _ _ _ (by omega)]; exact h

/-! ### one eviction -/

/-- the oldest object of the FIFO queue -/
theorem Abs.last (h : Abs z a s) {d : List Item} {x : Item} (hd : a.fifo = d ++ [x]) :
    ∃ o, s.base.lookup x.id = some o ∧ o.id = x.id ∧ o.size = x.size ∧ o.mt = ⟨.fifo, x.cnt⟩ ∧ qTail s.fifo = .ok x.id ∧ qRemove s.fifo x.id = .ok (ids d) ∧
      QDLPv0.osz s o = (x.size + z.md : Nat) := by
  obtain ⟨o, h1, h2, h3⟩ := h.tab.hf x (by rw [hd]; simp)
  have hq : s.fifo = ids d ++ [x.id] := by rw [h.qf, hd]; simp [ids]
  obtain ⟨hn, _⟩ := nd_parts h.tab
  have hnd : x.id ∉ ids d := by
    rw [← h.qf, hq, List.nodup_append] at hn
    exact fun hx => hn.2.2 x.id hx x.id (by simp) rfl
  refine ⟨o, h1, (lookup_some_mem h1).2, h2, h3, by simp [qTail, hq], ?_, by rw [h.osz h1, h2]⟩
  have : x.id ∈ s.fifo := by rw [hq]; simp
  rw [qRemove, if_pos this, hq, List.erase_append_right _ hnd]; simp

theorem Abs.promoted (h : Abs z a s) {d : List Item} {x : Item} (hd : a.fifo = d ++ [x]) {o : Obj Meta} (ho : s.base.lookup x.id = some o) (hs : o.size = x.size) :
    x.id ∉ s.clock ∧ Abs z { a with fifo := d, main := ⟨a.main.passed, a.main.ahead ++ [{ x with cnt := 0 }]⟩ }
      { s with fifo := ids d, nFifoByte := s.nFifoByte - QDLPv0.osz s o, clock := x.id :: s.clock, nClockObj := s.nClockObj + 1, nClockByte := s.nClockByte + QDLPv0.osz s o,
               base := s.base.modify x.id (fun o => { o with mt := ⟨.clock, 0⟩ }) } := by
  obtain ⟨hn, _, _, hd1, hd2⟩ := nd_parts h.tab
  have hxf : x.id ∈ ids a.fifo := List.mem_map_of_mem (by rw [hd]; simp)
  have hosz : QDLPv0.osz s o = (x.size + z.md : Nat) := by rw [h.osz ho, hs]
  have hnd : x.id ∉ ids d := by
    rw [hd] at hn
    simp only [ids, List.map_append, List.nodup_append] at hn
    exact fun hx => hn.2.2 x.id hx x.id (by simp) rfl
  have hq : x.id ∉ s.clock := by rw [← List.mem_reverse, h.qm]; exact (hd1 _ hxf).1
  have ei : items ⟨a.main.passed, a.main.ahead ++ [{ x with cnt := 0 }]⟩ = items a.main ++ [{ x with cnt := 0 }] := by simp [items]
  have hcf : charge z.md (a.fifo.map Item.entry) = charge z.md (d.map Item.entry) + (x.size + z.md) := by
    rw [hd, List.map_append, charge_append]; simp [charge, Item.entry]
  have hcm : charge z.md ((items a.main ++ [{ x with cnt := 0 }]).map Item.entry) = charge z.md ((items a.main).map Item.entry) + (x.size + z.md) := by
    rw [List.map_append, charge_append]; simp [charge, Item.entry]
  refine ⟨hq, ?_, Eq.refl _, ?_, h.qg, ?_, ?_, ?_, ?_, h.bg, ?_, ?_, ?_, h.fs, h.ms, h.gs⟩
  · refine h.tab.modify x.id _ (fun _ => Eq.refl _) (fun _ => Eq.refl _) ?_ ?_ ?_ ?_
    · simp only [allIds, ei, hd, ids, List.map_append, List.map_cons, List.map_nil, List.append_assoc, List.cons_append, List.nil_append]
      refine List.Perm.append_left _ ?_
      exact List.perm_middle.symm
    · intro y hy
      refine (h.tab.hf y (by rw [hd]; simp [hy])).hasIf ?_
      intro e; exact hnd (by rw [← e]; exact List.mem_map_of_mem hy)
    · rw [ei]
      intro y hy
      rcases List.mem_append.1 hy with hy | hy
      · refine (h.tab.hm y hy).hasIf ?_
        intro e; exact (hd1 _ hxf).1 (by rw [← e]; exact List.mem_map_of_mem hy)
      · have : y = { x with cnt := 0 } := by simpa using hy
        subst this
        exact ⟨o, ho, hs, by rw [if_pos (Eq.refl _)]⟩
    · intro y hy
      obtain ⟨o', k1, k2, k3⟩ := h.tab.hg y hy
      refine ⟨o', k1, k2, ?_⟩
      rw [if_neg]
      · exact k3
      · intro e; exact (hd1 _ hxf).2 (by rw [← e]; exact List.mem_map_of_mem hy)
  · show (x.id :: s.clock).reverse = _
    rw [ei, List.reverse_cons, h.qm]; simp [ids]
  · rcases h.hand with h1 | ⟨y, l, h1, h2⟩
    · exact Or.inl h1
    · exact Or.inr ⟨y, l ++ [{ x with cnt := 0 }], by show a.main.ahead ++ _ = _; rw [h1]; rfl, h2⟩
  · show s.nFifoByte - QDLPv0.osz s o = _
    rw [h.bf, hosz, hcf]; push_cast; omega
  · show s.nClockObj + 1 = _
    rw [ei, h.cm]; simp
  · show s.nClockByte + QDLPv0.osz s o = _
    rw [ei, h.bm, hosz, hcm]; push_cast; omega
  · show s.base.occ = _
    rw [ei, h.occ, hcf, hcm]; push_cast; omega
  · show s.base.nObj = _
    rw [ei, h.nObj, hd]; simp; omega
  · rw [ei]
    intro y hy
    rcases List.mem_append.1 hy with hy | hy
    · exact h.bits y hy
    · have : y = { x with cnt := 0 } := by simpa using hy
      rw [this]; exact Nat.zero_le 1

theorem Abs.demoted (h : Abs z a s) {d : List Item} {x : Item} (hd : a.fifo = d ++ [x]) {o : Obj Meta} (ho : s.base.lookup x.id = some o) (hs : o.size = x.size) :
    x.id ∉ s.ghost ∧ Abs z { a with fifo := d, ghosts := x.entry :: a.ghosts }
      { s with fifo := ids d, nFifoByte := s.nFifoByte - QDLPv0.osz s o, ghost := x.id :: s.ghost, nGhostByte := s.nGhostByte + QDLPv0.osz s o,
               base := { s.base with occ := s.base.occ - (((o.size + s.base.objMd) % u32 : Nat) : Int), nObj := s.base.nObj - 1 }.modify x.id (fun o => { o with mt := ⟨.ghost, o.mt.freq⟩ }) } := by
  obtain ⟨hn, _, _, hd1, hd2⟩ := nd_parts h.tab
  have hxf : x.id ∈ ids a.fifo := List.mem_map_of_mem (by rw [hd]; simp)
  have hosz : QDLPv0.osz s o = (x.size + z.md : Nat) := by rw [h.osz ho, hs]
  have hnd : x.id ∉ ids d := by
    rw [hd] at hn
    simp only [ids, List.map_append, List.nodup_append] at hn
    exact fun hx => hn.2.2 x.id hx x.id (by simp) rfl
  have hq : x.id ∉ s.ghost := by rw [h.qg]; exact (hd1 _ hxf).2
  have hcf : charge z.md (a.fifo.map Item.entry) = charge z.md (d.map Item.entry) + (x.size + z.md) := by
    rw [hd, List.map_append, charge_append]; simp [charge, Item.entry]
  have hb : Tab z a { s.base with occ := s.base.occ - (((o.size + s.base.objMd) % u32 : Nat) : Int), nObj := s.base.nObj - 1 } :=
    h.tab.congr (Eq.refl _) (Eq.refl _) (Eq.refl _)
  refine ⟨hq, ?_, Eq.refl _, h.qm, ?_, h.hand, ?_, h.cm, h.bm, ?_, ?_, ?_, h.bits, h.fs, h.ms, h.gs⟩
  · refine hb.modify x.id _ (fun _ => Eq.refl _) (fun _ => Eq.refl _) ?_ ?_ ?_ ?_
    · simp only [allIds, hd, ids, List.map_append, List.map_cons, List.map_nil, List.append_assoc, List.cons_append, List.nil_append, Contents.ids]
      refine List.Perm.append_left _ ?_
      exact List.perm_middle.symm
    · intro y hy
      refine (hb.hf y (by rw [hd]; simp [hy])).hasIf ?_
      intro e; exact hnd (by rw [← e]; exact List.mem_map_of_mem hy)
    · intro y hy
      refine (hb.hm y hy).hasIf ?_
      intro e; exact (hd1 _ hxf).1 (by rw [← e]; exact List.mem_map_of_mem hy)
    · intro y hy
      rcases List.mem_cons.1 hy with rfl | hy
      · exact ⟨o, ho, hs, if_pos (Eq.refl _)⟩
      · obtain ⟨o', k1, k2, k3⟩ := h.tab.hg y hy
        refine ⟨o', k1, k2, ?_⟩
        rw [if_neg]
        · exact k3
        · intro e; exact (hd1 _ hxf).2 (by rw [← e]; exact List.mem_map_of_mem hy)
  · show x.id :: s.ghost = _
    rw [h.qg]; rfl
  · show s.nFifoByte - QDLPv0.osz s o = _
    rw [h.bf, hosz, hcf]; push_cast; omega
  · show s.nGhostByte + QDLPv0.osz s o = _
    rw [h.bg, hosz]; simp [charge, Item.entry]; omega
  · show s.base.occ - _ = _
    rw [h.occ, hcf, h.tab.mdz, Nat.mod_eq_of_lt (h.tab.small o (lookup_some_mem ho).1), hs]; push_cast; omega
  · show s.base.nObj - 1 = _
    rw [h.nObj, hd]; simp; omega

/-- How much is left to evict. -/
def Abs.size (a : Queues) : Nat := 2 * a.fifo.length + (items a.main).length

theorem contents_eq (a : Queues) : a.contents = a.fifo.map Item.entry ++ (items a.main).map Item.entry := Eq.refl _

theorem ids_contents (a : Queues) : a.contents.ids = ids a.fifo ++ ids (items a.main) := by
  simp [contents_eq, Contents.ids, ids]; rfl

theorem subset_ids {l l' : List Item} (h : (l.map Item.entry).Subperm (l'.map Item.entry)) : ids l ⊆ ids l' := by
  rw [ids_entry, ids_entry]
  exact List.map_subset _ h.subset

theorem Abs.evict (h : Abs z a s) (hne : a.contents ≠ []) :
    ∃ s', evict s = .ok s' ∧ Abs z (QuickDemotion.evict z a) s' ∧ Same s s' ∧ (QuickDemotion.evict z a).contents.Subperm a.contents ∧
      Abs.size (QuickDemotion.evict z a) < Abs.size a ∧ allIds (QuickDemotion.evict z a) ⊆ allIds a ∧
      (charge z.md a.ghosts ≤ z.main → charge z.md (QuickDemotion.evict z a).ghosts ≤ z.main) := by
  have hb : bytes z.md (a.fifo.map Item.entry) = charge z.md (a.fifo.map Item.entry) := bytes_eq_charge _ _
  by_cases hc : charge z.md (a.fifo.map Item.entry) > z.fifo ∨ sieve.contents a.main = []
  · have hcond : s.nFifoByte > s.fifoSize ∨ s.nClockObj = 0 := by
      rcases hc with hc | hc
      · left; rw [h.bf, h.fs]; exact_mod_cast hc
      · right
        have : (items a.main).map Item.entry = [] := hc
        rw [h.cm, List.map_eq_nil_iff.1 this]; rfl
    have hfne : a.fifo ≠ [] := by
      intro e
      rcases hc with hc | hc
      · rw [e] at hc; simp [charge] at hc
      · apply hne
        rw [contents_eq, e]; exact hc
    obtain ⟨d, x, hd⟩ : ∃ d x, a.fifo = d ++ [x] := ⟨a.fifo.dropLast, a.fifo.getLast hfne, (List.dropLast_append_getLast hfne).symm⟩
    obtain ⟨o, ho, hoi, hos, hom, htl, hrm, hosz⟩ := h.last hd
    have hgl : a.fifo.getLast? = some x := by rw [hd]; simp
    have hdl : a.fifo.dropLast = d := by rw [hd]; simp
    by_cases hz : x.cnt = 0
    · have he : QuickDemotion.evict z a = { a with fifo := d, ghosts := newestWithin z.md z.main (x.entry :: a.ghosts) } := by
        rw [QuickDemotion.evict, hb, if_pos hc, hgl]
        simp only [if_pos hz, hdl]
      obtain ⟨hq, h1⟩ := h.demoted hd ho hos
      obtain ⟨s', k1, k2, k3⟩ := Abs.trim ((x.id :: s.ghost).length + 1) _ _ h1 (by
        show (x.entry :: a.ghosts).length < _
        rw [h.qg]; simp [Contents.ids])
      rw [he]
      refine ⟨s', ?_, k2, k3, ?_, ?_, ?_, fun _ => nw_charge _ _ _⟩
      · simp only [QDLPv0.evict, if_pos hcond, htl, Res.bind_ok, ho, hrm, hom, hz, gt_iff_lt, Nat.lt_irrefl, if_false]
        simp only [demote, Base.removeObjBaseKeep, hoi, ho, Res.bind_ok, qPrepend, if_neg hq]
        exact k1
      · simp only [contents_eq, hd, List.map_append]
        exact ((List.sublist_append_left _ _).append_right _).subperm
      · simp only [Abs.size, hd, List.length_append, List.length_singleton]; omega
      · simp only [allIds, hd]
        intro y hy
        simp only [List.mem_append] at hy ⊢
        rcases hy with hy | hy | hy
        · left; simp only [ids, List.map_append, List.mem_append]; exact Or.inl hy
        · exact Or.inr (Or.inl hy)
        · have := (List.IsPrefix.sublist (nw_prefix z.md (x.entry :: a.ghosts) z.main)).subset
          have hy' : y ∈ Contents.ids (x.entry :: a.ghosts) := List.map_subset _ this hy
          rcases List.mem_cons.1 (show y ∈ x.id :: a.ghosts.ids from hy') with rfl | hy'
          · left; simp [ids]
          · exact Or.inr (Or.inr hy')
    · have hlen : (sieve.contents a.main).length + 1 = (items a.main).length + 1 := by
        show ((items a.main).map Item.entry).length + 1 = _
        rw [List.length_map]
      have he : QuickDemotion.evict z a = { a with fifo := d, main := shrinkMain z ((items a.main).length + 1) ⟨a.main.passed, a.main.ahead ++ [{ x with cnt := 0 }]⟩ } := by
        rw [QuickDemotion.evict, hb, if_pos hc, hgl]
        simp only [if_neg hz, hdl, hlen]
      obtain ⟨hq, h1⟩ := h.promoted hd ho hos
      have ei : items ⟨a.main.passed, a.main.ahead ++ [{ x with cnt := 0 }]⟩ = items a.main ++ [{ x with cnt := 0 }] := by simp [items]
      have hql : s.clock.length = (items a.main).length := by
        have := congrArg List.length h.qm
        simpa [ids] using this
      obtain ⟨s', k1, k2, k3, k4⟩ := Abs.shrink ((x.id :: s.clock).length + 1) ((items a.main).length + 1) _ _ h1
        (by show (items ⟨a.main.passed, a.main.ahead ++ [{ x with cnt := 0 }]⟩).length < _
            rw [ei]; simp [hql])
        (by show (items ⟨a.main.passed, a.main.ahead ++ [{ x with cnt := 0 }]⟩).length ≤ _
            rw [ei]; simp)
      have k4' : ((items (shrinkMain z ((items a.main).length + 1) ⟨a.main.passed, a.main.ahead ++ [{ x with cnt := 0 }]⟩)).map Item.entry).Subperm
          ((items a.main).map Item.entry ++ [x.entry]) := by
        have := k4
        simp only [ei, List.map_append] at this
        exact this
      rw [he]
      refine ⟨s', ?_, k2, k3, ?_, ?_, ?_, fun h => h⟩
      · have hpos : x.cnt > 0 := by omega
        simp only [QDLPv0.evict, if_pos hcond, htl, Res.bind_ok, ho, hrm, hom, hpos, if_true]
        simp only [promote, hoi, qPrepend, if_neg hq, Res.bind_ok]
        exact k1
      · simp only [contents_eq, hd, List.map_append, List.append_assoc]
        refine ((List.subperm_append_left _).2 k4').trans (List.Perm.subperm ?_)
        refine List.Perm.append_left _ ?_
        exact List.perm_append_comm
      · have := k4'.length_le
        simp only [List.length_map, List.length_append, List.length_singleton] at this
        simp only [Abs.size, hd, List.length_append, List.length_singleton]; omega
      · simp only [allIds, hd]
        intro y hy
        simp only [List.mem_append] at hy ⊢
        rcases hy with hy | hy | hy
        · left; simp only [ids, List.map_append, List.mem_append]; exact Or.inl hy
        · rw [ids_entry] at hy
          have hy' := List.map_subset Prod.fst k4'.subset hy
          rw [List.map_append, List.mem_append] at hy'
          rcases hy' with hy' | hy'
          · right; left; rw [ids_entry]; exact hy'
          · left
            have : y = x.id := by simpa [Item.entry] using hy'
            simp [ids, this]
        · exact Or.inr (Or.inr hy)
  · rw [not_or] at hc
    have hmne : items a.main ≠ [] := by
      intro e; exact hc.2 (by show (items a.main).map Item.entry = []; rw [e]; rfl)
    have hcond : ¬ (s.nFifoByte > s.fifoSize ∨ s.nClockObj = 0) := by
      rw [not_or, h.bf, h.fs, h.cm]
      refine ⟨by exact_mod_cast hc.1, ?_⟩
      have := List.length_pos_iff.2 hmne
      omega
    have he : QuickDemotion.evict z a = { a with main := sieve.evict a.main } := by
      rw [QuickDemotion.evict, hb, if_neg (by rw [not_or]; exact hc)]
    obtain ⟨s', v, k1, k2, k3, k4⟩ := h.clockEvict hmne
    have hsub : ((items (sieve.evict a.main)).map Item.entry).Subperm ((items a.main).map Item.entry) :=
      (List.Sublist.subperm (List.sublist_cons_self v _)).trans k4.symm.subperm
    rw [he]
    refine ⟨s', ?_, k2, k3, ?_, ?_, ?_, fun h => h⟩
    · rw [QDLPv0.evict, if_neg hcond]; exact k1
    · simp only [contents_eq]
      exact (List.subperm_append_left _).2 hsub
    · have := k4.length_eq
      simp only [List.length_map, List.length_cons] at this
      simp only [Abs.size]; omega
    · simp only [allIds]
      intro y hy
      simp only [List.mem_append] at hy ⊢
      rcases hy with hy | hy | hy
      · exact Or.inl hy
      · exact Or.inr (Or.inl (subset_ids hsub hy))
      · exact Or.inr (Or.inr hy)

end
end Verif.QDLPv0
