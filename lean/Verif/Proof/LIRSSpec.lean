import Verif.Spec.LIRS
import Verif.Base.Contract
/-!
# LIRS on lists: what every call preserves
-/

namespace Verif.Spec.LIRS
open Verif Verif.Spec

theorem hotBytes_eq (s : State) : hotBytes s = charge 0 (hotOf s.stack) := bytes_eq_charge _ _
theorem coldBytes_eq (s : State) : coldBytes s = charge 0 s.queue := bytes_eq_charge _ _

@[simp] theorem hotOf_nil : hotOf [] = [] := rfl
theorem hotOf_append (a b : List Block) : hotOf (a ++ b) = hotOf a ++ hotOf b := by simp [hotOf]
theorem hotOf_cons (b : Block) (l : List Block) : hotOf (b :: l) = if b.hot then (b.id, b.size) :: hotOf l else hotOf l := by
  simp only [hotOf, List.filter_cons]
  split <;> simp
theorem hotOf_perm {a b : List Block} (h : a.Perm b) : (hotOf a).Perm (hotOf b) := (h.filter _).map _
theorem mem_hotOf {l : List Block} {x : ObjId × Nat} : x ∈ hotOf l ↔ ∃ b ∈ l, b.hot = true ∧ (b.id, b.size) = x := by
  simp [hotOf, and_assoc]

/-- a map that keeps ids, sizes and temperature -/
theorem hotOf_map {f : Block → Block} (h : ∀ b, (f b).id = b.id ∧ (f b).size = b.size ∧ (f b).hot = b.hot) (l : List Block) : hotOf (l.map f) = hotOf l := by
  induction l with
  | nil => rfl
  | cons b l ih => rw [List.map_cons, hotOf_cons, hotOf_cons, ih, (h b).1, (h b).2.1, (h b).2.2]

theorem ids_map {f : Block → Block} (h : ∀ b, (f b).id = b.id) (l : List Block) : ids (l.map f) = ids l := by
  simp only [ids, List.map_map]
  exact List.map_congr_left fun b _ => h b

theorem eq_of_ids {l : List Block} (h : (ids l).Nodup) {a b : Block} (ha : a ∈ l) (hb : b ∈ l) (e : a.id = b.id) : a = b :=
  List.inj_on_of_nodup_map h ha hb e

/-- mark as evicted -/
def mark (x : ObjId) (b : Block) : Block := if b.id = x then { b with resident := false } else b
theorem mark_id (x : ObjId) (b : Block) : (mark x b).id = b.id := by unfold mark; split <;> rfl
theorem mark_size (x : ObjId) (b : Block) : (mark x b).size = b.size := by unfold mark; split <;> rfl
theorem mark_hot (x : ObjId) (b : Block) : (mark x b).hot = b.hot := by unfold mark; split <;> rfl

theorem dropCold_concat {s : State} {q : Contents} {x : ObjId × Nat} (h : s.queue = q ++ [x]) :
    dropCold s = { s with queue := q, stack := s.stack.map (mark x.1), gone := if x.1 ∈ ids s.stack then x.1 :: s.gone else s.gone } := by
  unfold dropCold
  rw [h, List.getLast?_concat, List.dropLast_concat]
  rfl

/-- the size of a block that may be in the cache -/
def SizeFits (c : Limits) (sz : ObjId → Nat) (id : ObjId) (n : Nat) : Prop := n = sz id ∧ n < u32 ∧ 3 * n ≤ c.cold

/-- What holds between the steps of a call; `E` is the block the call is about, if it has just left the queue. -/
structure Core (c : Limits) (sz : ObjId → Nat) (E : ObjId → Prop) (s : State) : Prop where
  sn : (ids s.stack).Nodup
  qn : s.queue.ids.Nodup
  gn : s.gone.Nodup
  hr : ∀ b ∈ s.stack, b.hot = true → b.resident = true
  eh : ∀ b ∈ s.stack, E b.id → b.hot = false ∧ b.id ∉ s.queue.ids
  cold : ∀ b ∈ s.stack, ¬ E b.id → (b.id ∈ s.queue.ids ↔ b.hot = false ∧ b.resident = true)
  gone : ∀ x, x ∈ s.gone ↔ ∃ b ∈ s.stack, b.id = x ∧ b.resident = false
  szS : ∀ b ∈ s.stack, SizeFits c sz b.id b.size
  szQ : ∀ x ∈ s.queue, SizeFits c sz x.1 x.2
  hotLe : hotBytes s ≤ c.hot
  coldLe : coldBytes s ≤ c.cold

variable {c : Limits} {sz : ObjId → Nat} {E : ObjId → Prop} {s : State}

theorem Core.hotNotQueued (h : Core c sz E s) {b : Block} (hb : b ∈ s.stack) (hh : b.hot = true) : b.id ∉ s.queue.ids := by
  by_cases he : E b.id
  · exact (h.eh b hb he).2
  · intro hx
    have := ((h.cold b hb he).1 hx).1
    rw [hh] at this
    cases this

theorem Core.notHot (h : Core c sz E s) {b : Block} (hb : b ∈ s.stack) (hq : b.id ∈ s.queue.ids) : b.hot = false ∧ b.resident = true ∧ ¬ E b.id := by
  by_cases he : E b.id
  · exact absurd hq (h.eh b hb he).2
  · exact ⟨((h.cold b hb he).1 hq).1, ((h.cold b hb he).1 hq).2, he⟩

theorem Core.nodup (h : Core c sz E s) : (contents s).ids.Nodup := by
  unfold contents Contents.ids
  rw [List.map_append, List.nodup_append]
  refine ⟨?_, h.qn, ?_⟩
  · refine List.Nodup.sublist ?_ h.sn
    simp only [hotOf, List.map_map]
    exact List.Sublist.map _ List.filter_sublist
  · intro a ha b hb e
    subst e
    obtain ⟨y, hy, rfl⟩ := List.mem_map.1 ha
    obtain ⟨d, hd, hh, rfl⟩ := mem_hotOf.1 hy
    exact h.hotNotQueued hd hh hb

theorem Core.dropCold (h : Core c sz E s) {q : Contents} {x : ObjId × Nat} (hq : s.queue = q ++ [x]) : Core c sz E (dropCold s) := by
  rw [dropCold_concat hq]
  have hqn := h.qn
  rw [hq] at hqn
  simp only [Contents.ids, List.map_append, List.map_cons, List.map_nil] at hqn
  have hx : x.1 ∉ q.ids := by
    intro hm
    exact (List.nodup_append.1 hqn).2.2 _ hm _ (by simp) rfl
  have hin : ∀ y, y ∈ s.queue.ids ↔ y ∈ q.ids ∨ y = x.1 := by
    intro y
    rw [hq]
    simp [Contents.ids]
  have hxq : x.1 ∈ s.queue.ids := (hin _).2 (Or.inr rfl)
  refine ⟨?_, (List.nodup_append.1 hqn).1, ?_, ?_, ?_, ?_, ?_, ?_, ?_, ?_, ?_⟩
  · show (ids (s.stack.map (mark x.1))).Nodup
    rw [ids_map (mark_id x.1)]; exact h.sn
  · show (if x.1 ∈ ids s.stack then x.1 :: s.gone else s.gone).Nodup
    split
    · rename_i hxs
      refine List.nodup_cons.2 ⟨fun hg => ?_, h.gn⟩
      obtain ⟨b, hb, he, hr⟩ := (h.gone _).1 hg
      have := (h.notHot hb (by rw [he]; exact hxq)).2.1
      rw [hr] at this
      cases this
    · exact h.gn
  · intro b hb hh
    obtain ⟨d, hd, rfl⟩ := List.mem_map.1 hb
    rw [mark_hot] at hh
    unfold mark
    split
    · rename_i e
      have := (h.notHot hd (by rw [e]; exact hxq)).1
      rw [hh] at this
      cases this
    · exact h.hr d hd hh
  · intro b hb he
    obtain ⟨d, hd, rfl⟩ := List.mem_map.1 hb
    rw [mark_id] at he
    rw [mark_hot, mark_id]
    exact ⟨(h.eh d hd he).1, fun hm => (h.eh d hd he).2 ((hin _).2 (Or.inl hm))⟩
  · intro b hb he
    obtain ⟨d, hd, rfl⟩ := List.mem_map.1 hb
    rw [mark_id] at he
    rw [mark_hot, mark_id]
    show d.id ∈ q.ids ↔ _
    by_cases e : d.id = x.1
    · rw [e]
      refine ⟨fun hm => absurd hm hx, fun hm => ?_⟩
      have := hm.2
      unfold mark at this
      rw [if_pos e] at this
      cases this
    · have hc := h.cold d hd he
      rw [hin] at hc
      unfold mark
      rw [if_neg e]
      exact ⟨fun hm => hc.1 (Or.inl hm), fun hm => (hc.2 hm).resolve_right e⟩
  · intro y
    show y ∈ (if x.1 ∈ ids s.stack then x.1 :: s.gone else s.gone) ↔ _
    constructor
    · intro hy
      have hy' : (y = x.1 ∧ x.1 ∈ ids s.stack) ∨ y ∈ s.gone := by
        split at hy
        · rename_i hs
          rcases List.mem_cons.1 hy with e | e
          · exact Or.inl ⟨e, hs⟩
          · exact Or.inr e
        · exact Or.inr hy
      rcases hy' with ⟨rfl, hs⟩ | hy
      · obtain ⟨d, hd, e⟩ := List.mem_map.1 hs
        exact ⟨mark x.1 d, List.mem_map.2 ⟨d, hd, rfl⟩, by rw [mark_id, e], by unfold mark; rw [if_pos e]⟩
      · obtain ⟨d, hd, e, hr⟩ := (h.gone y).1 hy
        refine ⟨mark x.1 d, List.mem_map.2 ⟨d, hd, rfl⟩, by rw [mark_id, e], ?_⟩
        unfold mark
        split
        · rfl
        · exact hr
    · rintro ⟨b, hb, e, hr⟩
      obtain ⟨d, hd, rfl⟩ := List.mem_map.1 hb
      rw [mark_id] at e
      by_cases ex : d.id = x.1
      · have hs : x.1 ∈ ids s.stack := List.mem_map.2 ⟨d, hd, ex⟩
        rw [if_pos hs, ← e, ex]
        exact List.mem_cons_self
      · unfold mark at hr
        rw [if_neg ex] at hr
        have := (h.gone y).2 ⟨d, hd, e, hr⟩
        split
        · exact List.mem_cons_of_mem _ this
        · exact this
  · intro b hb
    obtain ⟨d, hd, rfl⟩ := List.mem_map.1 hb
    rw [mark_id, mark_size]
    exact h.szS d hd
  · intro y hy
    exact h.szQ y (by rw [hq]; exact List.mem_append_left _ hy)
  · have := h.hotLe
    rw [hotBytes_eq] at this ⊢
    show charge 0 (hotOf (s.stack.map (mark x.1))) ≤ _
    rw [hotOf_map fun b => ⟨mark_id _ b, mark_size _ b, mark_hot _ b⟩]
    exact this
  · have := h.coldLe
    rw [coldBytes_eq, hq, charge_append] at this
    rw [coldBytes_eq]
    show charge 0 q ≤ _
    omega

/-- What making room does: the end of the queue goes, and the stack only learns of it. -/
structure Thinned (s s' : State) : Prop where
  adm : s'.adm = s.adm
  ids : ids s'.stack = ids s.stack
  hot : hotOf s'.stack = hotOf s.stack
  sum : (s'.stack.map (·.size)).sum = (s.stack.map (·.size)).sum
  queue : s'.queue <+: s.queue
  /-- a block changes only if it leaves the queue -/
  same : ∀ b ∈ s.stack, b.id ∉ s.queue.ids → b ∈ s'.stack
  last : ∀ b, s.stack.getLast? = some b → b.hot = true → s.queue.ids.Nodup → b.id ∉ s.queue.ids → s'.stack.getLast? = some b
  head : ∀ b, s.stack.head? = some b → b.id ∉ s.queue.ids → s'.stack.head? = some b

theorem Thinned.refl (s : State) : Thinned s s := ⟨rfl, rfl, rfl, rfl, List.prefix_refl _, fun _ h _ => h, fun _ h _ _ _ => h, fun _ h _ => h⟩

theorem Thinned.trans {a b d : State} (h : Thinned a b) (h' : Thinned b d) : Thinned a d where
  adm := h'.adm.trans h.adm
  ids := h'.ids.trans h.ids
  hot := h'.hot.trans h.hot
  sum := h'.sum.trans h.sum
  queue := h'.queue.trans h.queue
  same := fun x hx hq => h'.same x (h.same x hx hq) (fun hm => hq ((h.queue.map Prod.fst).subset hm))
  last := fun x hx hh hn hq => h'.last x (h.last x hx hh hn hq) hh (hn.sublist (h.queue.map Prod.fst).sublist) (fun hm => hq ((h.queue.map Prod.fst).subset hm))
  head := fun x hx hq => h'.head x (h.head x hx hq) (fun hm => hq ((h.queue.map Prod.fst).subset hm))

theorem thinned_dropCold {q : Contents} {x : ObjId × Nat} (hq : s.queue = q ++ [x]) : Thinned s (dropCold s) := by
  rw [dropCold_concat hq]
  have hx : x.1 ∈ s.queue.ids := by rw [hq]; simp [Contents.ids]
  have hm : ∀ b : Block, b.id ∉ s.queue.ids → mark x.1 b = b := by
    intro b hb
    unfold mark
    rw [if_neg]
    intro e
    exact hb (by rw [e]; exact hx)
  refine ⟨rfl, ids_map (mark_id x.1) _, hotOf_map (fun b => ⟨mark_id _ b, mark_size _ b, mark_hot _ b⟩) _, ?_, ⟨[x], hq.symm⟩, ?_, ?_, ?_⟩
  · show ((s.stack.map (mark x.1)).map (·.size)).sum = _
    rw [List.map_map]
    exact congrArg List.sum (List.map_congr_left fun b _ => mark_size x.1 b)
  · intro b hb hn
    exact List.mem_map.2 ⟨b, hb, hm b hn⟩
  · intro b hb _ _ hn
    show (s.stack.map (mark x.1)).getLast? = some b
    rw [List.getLast?_map, hb, Option.map_some, hm b hn]
  · intro b hb hn
    show (s.stack.map (mark x.1)).head? = some b
    rw [List.head?_map, hb, Option.map_some, hm b hn]

theorem exists_lastQ {l : Contents} (h : l ≠ []) : ∃ q x, l = q ++ [x] := by
  rcases List.eq_nil_or_concat l with e | ⟨q, x, e⟩
  · exact absurd e h
  · exact ⟨q, x, by rw [e, List.concat_eq_append]⟩

theorem makeRoom_spec {need : Nat} (hn : need ≤ c.cold) : ∀ n s, Core c sz E s → s.queue.length < n →
    Core c sz E (makeRoom c need n s) ∧ Thinned s (makeRoom c need n s) ∧ coldBytes (makeRoom c need n s) + need ≤ c.cold ∧
    ∀ D R, s.queue = D ++ R → charge 0 D + need ≤ c.cold → ∃ R', (makeRoom c need n s).queue = D ++ R' := by
  intro n
  induction n with
  | zero => intro s _ h; omega
  | succ n ih =>
    intro s h hl
    unfold makeRoom
    by_cases hc : coldBytes s + need > c.cold
    · rw [if_pos hc]
      have hne : s.queue ≠ [] := by
        intro e
        rw [coldBytes_eq, e] at hc
        simp only [charge] at hc
        omega
      obtain ⟨q, x, hq⟩ := exists_lastQ hne
      have hl' : (dropCold s).queue.length < n := by
        rw [dropCold_concat hq]
        rw [hq, List.length_append, List.length_singleton] at hl
        show q.length < n
        omega
      obtain ⟨i1, i2, i3, i4⟩ := ih _ (h.dropCold hq) hl'
      refine ⟨i1, (thinned_dropCold hq).trans i2, i3, fun D R e hD => ?_⟩
      have hR : R ≠ [] := by
        intro e'
        rw [coldBytes_eq, e, e', List.append_nil] at hc
        omega
      obtain ⟨R0, y, hR0⟩ := exists_lastQ hR
      refine i4 D R0 ?_ hD
      rw [dropCold_concat hq]
      show q = D ++ R0
      have : q ++ [x] = (D ++ R0) ++ [y] := by rw [← hq, e, hR0, List.append_assoc]
      exact (List.append_inj' this rfl).1
    · rw [if_neg hc]
      exact ⟨h, Thinned.refl s, by omega, fun D R e _ => ⟨R, e⟩⟩

/-! ## Pruning -/

theorem prune_cons (b : Block) (l : List Block) : prune (b :: l) = b :: l.rdropWhile (fun x => !x.hot) := rfl

theorem prune_prefix : ∀ l : List Block, prune l <+: l
  | [] => List.prefix_refl _
  | b :: l => by
    rw [prune_cons]
    exact (List.prefix_cons_inj b).2 (List.rdropWhile_prefix _ l)

theorem hotOf_rdrop (l : List Block) : hotOf (l.rdropWhile (fun x => !x.hot)) = hotOf l := by
  induction l using List.reverseRecOn with
  | nil => rfl
  | append_singleton l b ih =>
    rw [List.rdropWhile_concat]
    split
    · rename_i hb
      rw [ih, hotOf_append, hotOf_cons, if_neg (by simpa using hb)]
      simp
    · rfl

theorem hotOf_prune (l : List Block) : hotOf (prune l) = hotOf l := by
  cases l with
  | nil => rfl
  | cons b l => unfold prune; rw [hotOf_cons, hotOf_cons, hotOf_rdrop]

theorem prune_head (l : List Block) : (prune l).head? = l.head? := by cases l <;> rfl

/-- with a hot block in it, the pruned stack ends with one -/
theorem prune_last {l : List Block} (h : hotOf l ≠ []) : ∃ b, (prune l).getLast? = some b ∧ b.hot = true := by
  cases l with
  | nil => exact absurd rfl h
  | cons d l =>
    rw [prune_cons]
    by_cases hl : l.rdropWhile (fun x => !x.hot) = []
    · rw [hl]
      refine ⟨d, rfl, ?_⟩
      by_contra hd
      apply h
      rw [hotOf_cons, if_neg hd, ← hotOf_rdrop, hl]
      rfl
    · have := List.rdropWhile_last_not (p := fun x : Block => !x.hot) (l := l) hl
      refine ⟨(l.rdropWhile (fun x => !x.hot)).getLast hl, ?_, by simpa using this⟩
      rw [List.getLast?_eq_some_getLast (List.cons_ne_nil _ _), List.getLast_cons hl]

/-- a stack with a hot bottom is pruned -/
theorem prune_eq {l : List Block} {b : Block} (h : l.getLast? = some b) (hb : b.hot = true) : prune l = l := by
  cases l with
  | nil => rfl
  | cons d l =>
    rw [prune_cons]
    congr 1
    rw [List.rdropWhile_eq_self_iff]
    intro hl
    rw [List.getLast?_eq_some_getLast (List.cons_ne_nil _ _), List.getLast_cons hl] at h
    injection h with h
    rw [h, hb]
    simp

theorem Core.cut (h : Core c sz E s) {l : List Block} (hl : l <+: s.stack) (hh : hotOf l = hotOf s.stack) : Core c sz E (cut s l) := by
  refine ⟨h.sn.sublist (hl.sublist.map _), h.qn, h.gn.filter _, fun b hb => h.hr b (hl.subset hb), fun b hb => h.eh b (hl.subset hb),
    fun b hb => h.cold b (hl.subset hb), ?_, fun b hb => h.szS b (hl.subset hb), h.szQ, ?_, h.coldLe⟩
  · intro x
    show x ∈ s.gone.filter (· ∈ ids l) ↔ _
    rw [List.mem_filter, h.gone x]
    constructor
    · rintro ⟨⟨b, hb, e, hr⟩, hx⟩
      obtain ⟨d, hd, e'⟩ := List.mem_map.1 (of_decide_eq_true hx)
      have : b = d := eq_of_ids h.sn hb (hl.subset hd) (e.trans e'.symm)
      subst this
      exact ⟨b, hd, e, hr⟩
    · rintro ⟨b, hb, e, hr⟩
      exact ⟨⟨b, hl.subset hb, e, hr⟩, decide_eq_true (List.mem_map.2 ⟨b, hb, e⟩)⟩
  · have := h.hotLe
    rw [hotBytes_eq] at this ⊢
    show charge 0 (hotOf l) ≤ _
    rw [hh]; exact this

/-! ## Demotion -/

theorem demote_concat {l : List Block} {b : Block} (h : s.stack = l ++ [b]) (hb : b.size ≤ c.cold) :
    demote c s = LIRS.cut { makeRoom c b.size (s.queue.length + 1) { s with stack := l } with
      queue := (b.id, b.size) :: (makeRoom c b.size (s.queue.length + 1) { s with stack := l }).queue }
      (prune (makeRoom c b.size (s.queue.length + 1) { s with stack := l }).stack) := by
  unfold demote
  rw [h, List.getLast?_concat, List.dropLast_concat]
  simp only [if_pos hb]

/-- The effect of demoting the block `b` at the bottom of the stack. -/
structure Demoted (c : Limits) (b : Block) (s s' : State) : Prop where
  adm : s'.adm = s.adm
  hot : hotBytes s' + b.size = hotBytes s
  last : 0 < hotBytes s' → ∃ d, s'.stack.getLast? = some d ∧ d.hot = true
  len : s'.stack.length < s.stack.length
  ids : (ids s'.stack).Sublist (ids s.stack)
  head : ∀ x, s.stack.head? = some x → x.hot = false → x.id ∉ s.queue.ids → s'.stack.head? = some x ∧ x.id ∉ s'.queue.ids
  queue : ∀ D R, s.queue = D ++ R → charge 0 D + b.size ≤ c.cold → ∃ R', s'.queue = (b.id, b.size) :: D ++ R'
  evicted : ∃ vs, (contents s).Perm (vs ++ contents s') ∧ ∀ v ∈ vs, v ∈ s.queue

theorem exists_hot {l : List Block} (h : 0 < charge 0 (hotOf l)) : hotOf l ≠ [] := by
  intro e
  rw [e] at h
  simp [charge] at h

/-- the hot block at the bottom leaves the stack -/
theorem Core.dropBottom (h : Core c sz E s) {l : List Block} {b : Block} (hl : s.stack = l ++ [b]) (hb : b.hot = true) : Core c sz E { s with stack := l } := by
  have hbm : b ∈ s.stack := by rw [hl]; simp
  have hsn := h.sn
  rw [hl] at hsn
  simp only [LIRS.ids, List.map_append, List.map_cons, List.map_nil] at hsn
  have hsub : ∀ x ∈ l, x ∈ s.stack := fun x hx => by rw [hl]; exact List.mem_append_left _ hx
  refine ⟨(List.nodup_append.1 hsn).1, h.qn, h.gn, fun x hx => h.hr x (hsub x hx), fun x hx => h.eh x (hsub x hx), fun x hx => h.cold x (hsub x hx), ?_,
    fun x hx => h.szS x (hsub x hx), h.szQ, ?_, h.coldLe⟩
  · intro x
    rw [h.gone x]
    constructor
    · rintro ⟨d, hd, e, hr⟩
      rw [hl] at hd
      rcases List.mem_append.1 hd with hd | hd
      · exact ⟨d, hd, e, hr⟩
      · rw [List.mem_singleton.1 hd, h.hr b hbm hb] at hr
        cases hr
    · rintro ⟨d, hd, e, hr⟩
      exact ⟨d, hsub d hd, e, hr⟩
  · have := h.hotLe
    rw [hotBytes_eq, hl, hotOf_append, charge_append] at this
    rw [hotBytes_eq]
    show charge 0 (hotOf l) ≤ _
    omega

/-- a block that was nowhere joins the queue -/
theorem Core.join (h : Core c sz E s) {x : ObjId × Nat} (hx : SizeFits c sz x.1 x.2) (hs : x.1 ∉ LIRS.ids s.stack) (hq : x.1 ∉ s.queue.ids)
    (hr : coldBytes s + x.2 ≤ c.cold) : Core c sz E { s with queue := x :: s.queue } := by
  have hne : ∀ y ∈ s.stack, y.id ≠ x.1 := fun y hy e => hs (by rw [← e]; exact List.mem_map.2 ⟨y, hy, rfl⟩)
  refine ⟨h.sn, List.nodup_cons.2 ⟨hq, h.qn⟩, h.gn, h.hr, ?_, ?_, h.gone, h.szS, ?_, h.hotLe, ?_⟩
  · intro y hy he
    refine ⟨(h.eh y hy he).1, ?_⟩
    simp only [Contents.ids, List.map_cons, List.mem_cons, not_or]
    exact ⟨hne y hy, (h.eh y hy he).2⟩
  · intro y hy he
    rw [← h.cold y hy he]
    simp only [Contents.ids, List.map_cons, List.mem_cons]
    exact ⟨fun hm => hm.resolve_left (hne y hy), Or.inr⟩
  · intro y hy
    rcases List.mem_cons.1 hy with rfl | hy
    · exact hx
    · exact h.szQ y hy
  · rw [coldBytes_eq] at hr ⊢
    simp only [charge]
    omega

theorem Core.demote (h : Core c sz E s) {l : List Block} {b : Block} (hl : s.stack = l ++ [b]) (hb : b.hot = true) :
    Core c sz E (demote c s) ∧ Demoted c b s (LIRS.demote c s) := by
  have hbm : b ∈ s.stack := by rw [hl]; simp
  obtain ⟨_, _, hbs⟩ := h.szS b hbm
  have hbc : b.size ≤ c.cold := by omega
  have hsn := h.sn
  rw [hl] at hsn
  simp only [LIRS.ids, List.map_append, List.map_cons, List.map_nil] at hsn
  have hbl : b.id ∉ LIRS.ids l := fun hm => (List.nodup_append.1 hsn).2.2 _ hm _ (by simp) rfl
  have hbq : b.id ∉ s.queue.ids := h.hotNotQueued hbm hb
  have hhot : charge 0 (hotOf l) + b.size = hotBytes s := by
    rw [hotBytes_eq, hl, hotOf_append, charge_append, hotOf_cons, if_pos hb, hotOf_nil]
    simp only [charge]
    omega
  have h1 : Core c sz E { s with stack := l } := h.dropBottom hl hb
  rw [demote_concat hl hbc]
  obtain ⟨m1, m2, m3, m4⟩ := makeRoom_spec (need := b.size) hbc (s.queue.length + 1) { s with stack := l } h1 (Nat.lt_succ_self _)
  generalize makeRoom c b.size (s.queue.length + 1) { s with stack := l } = t at m1 m2 m3 m4
  have hq : t.queue <+: s.queue := m2.queue
  have hti : LIRS.ids t.stack = LIRS.ids l := m2.ids
  have hbt : b.id ∉ LIRS.ids t.stack := by rw [hti]; exact hbl
  have hbtq : b.id ∉ t.queue.ids := fun hm => hbq ((hq.map Prod.fst).subset hm)
  have hth : hotOf t.stack = hotOf l := m2.hot
  have h2 : Core c sz E { t with queue := (b.id, b.size) :: t.queue } := m1.join (h.szS b hbm) hbt hbtq m3
  refine ⟨h2.cut (prune_prefix _) (hotOf_prune _), ?_⟩
  have hlen : l.length + 1 = s.stack.length := by rw [hl]; simp
  have htl : t.stack.length = l.length := by
    have := congrArg List.length hti
    simpa [LIRS.ids] using this
  refine ⟨m2.adm, ?_, ?_, ?_, ?_, ?_, ?_, ?_⟩
  · rw [hotBytes_eq]
    show charge 0 (hotOf (prune t.stack)) + b.size = _
    rw [hotOf_prune, hth]; exact hhot
  · intro hp
    rw [hotBytes_eq] at hp
    have hp' : 0 < charge 0 (hotOf (prune t.stack)) := hp
    rw [hotOf_prune] at hp'
    exact prune_last (exists_hot hp')
  · have := (prune_prefix t.stack).length_le
    show (prune t.stack).length < _
    omega
  · show (LIRS.ids (prune t.stack)).Sublist _
    have : (LIRS.ids (prune t.stack)).Sublist (LIRS.ids l) := by rw [← hti]; exact (prune_prefix _).sublist.map _
    refine this.trans ?_
    rw [hl]
    simp only [LIRS.ids, List.map_append]
    exact List.sublist_append_left _ _
  · intro x hx hc hxq
    have hxl : l.head? = some x := by
      rw [hl] at hx
      cases l with
      | nil =>
        simp only [List.nil_append, List.head?_cons, Option.some.injEq] at hx
        rw [← hx, hb] at hc
        cases hc
      | cons d l => exact hx
    refine ⟨?_, ?_⟩
    · show (prune t.stack).head? = _
      rw [prune_head]
      exact m2.head x hxl hxq
    · show x.id ∉ ((b.id, b.size) :: t.queue).map Prod.fst
      simp only [List.map_cons, List.mem_cons, not_or]
      refine ⟨fun e => hbl (by rw [← e]; exact List.mem_map.2 ⟨x, List.mem_of_mem_head? hxl, rfl⟩), fun hm => hxq ((hq.map Prod.fst).subset hm)⟩
  · intro D R e hD
    obtain ⟨R', hR⟩ := m4 D R e hD
    refine ⟨R', ?_⟩
    show (b.id, b.size) :: t.queue = _
    rw [hR]; rfl
  · obtain ⟨vs, hvs⟩ := hq
    refine ⟨vs, ?_, fun v hv => by rw [← hvs]; exact List.mem_append_right _ hv⟩
    show (hotOf s.stack ++ s.queue).Perm (vs ++ (hotOf (prune t.stack) ++ (b.id, b.size) :: t.queue))
    rw [hotOf_prune, hth, hl, hotOf_append, hotOf_cons, if_pos hb, hotOf_nil, ← hvs]
    refine List.Perm.trans ?_ List.perm_append_comm
    simp only [List.append_assoc]
    exact List.Perm.refl _

/-- the block at the bottom of the stack is hot -/
def HotBottom (s : State) : Prop := ∃ l b, s.stack = l ++ [b] ∧ b.hot = true

theorem hotBottom_iff : HotBottom s ↔ ∃ b, s.stack.getLast? = some b ∧ b.hot = true := by
  constructor
  · rintro ⟨l, b, h, hb⟩
    exact ⟨b, by rw [h, List.getLast?_concat], hb⟩
  · rintro ⟨b, h, hb⟩
    obtain ⟨l, hl⟩ := List.getLast?_eq_some_iff.1 h
    exact ⟨l, b, hl, hb⟩

/-- the block the loop is about: on top of the stack, or in the queue -/
def OnTop (x : Block) (s : State) : Prop := s.stack.head? = some x ∧ x.hot = false ∧ x.id ∉ s.queue.ids
def Queued (c : Limits) (x : ObjId × Nat) (s : State) : Prop :=
  (∃ D R, s.queue = D ++ x :: R ∧ charge 0 D + hotBytes s ≤ c.hot) ∧ x.1 ∉ ids s.stack

/-- One round of the loop that demotes blocks. -/
theorem Core.round (h : Core c sz E s) (hlim : c.cold ≤ c.hot) {need : Nat} (hn : 3 * need ≤ c.cold) (hgt : hotBytes s + need > c.hot) (hbot : HotBottom s) :
    ∃ b, Core c sz E (LIRS.demote c s) ∧ HotBottom (LIRS.demote c s) ∧ Demoted c b s (LIRS.demote c s) ∧
      (∀ x, OnTop x s → OnTop x (LIRS.demote c s)) ∧ (∀ x, x.2 = need → Queued c x s → Queued c x (LIRS.demote c s)) := by
  obtain ⟨l, b, hl, hb⟩ := hbot
  obtain ⟨h1, h2⟩ := h.demote hl hb
  have hbs : 3 * b.size ≤ c.cold := (h.szS b (by rw [hl]; simp)).2.2
  have hle := h.hotLe
  refine ⟨b, h1, ?_, h2, ?_, ?_⟩
  · rw [hotBottom_iff]
    refine h2.last ?_
    have := h2.hot
    omega
  · rintro x ⟨e1, e2, e3⟩
    exact ⟨(h2.head x e1 e2 e3).1, e2, (h2.head x e1 e2 e3).2⟩
  · rintro x hx ⟨⟨D, R, e, hD⟩, hns⟩
    refine ⟨?_, fun hm => hns (h2.ids.subset hm)⟩
    have hc : charge 0 (D ++ [x]) + b.size ≤ c.cold := by
      rw [charge_append]
      simp only [charge]
      omega
    obtain ⟨R', hR⟩ := h2.queue (D ++ [x]) R (by rw [e]; simp) hc
    refine ⟨(b.id, b.size) :: D, R', by rw [hR]; simp, ?_⟩
    have := h2.hot
    simp only [charge]
    omega

/-- What the loop does. -/
structure Cooled (c : Limits) (need : Nat) (s s' : State) : Prop where
  adm : s'.adm = s.adm
  fits : hotBytes s' + need ≤ c.hot
  ids : (ids s'.stack).Sublist (ids s.stack)
  evicted : ∃ vs, (contents s).Perm (vs ++ contents s')
  same : hotBytes s + need ≤ c.hot → s' = s
  bottom : HotBottom s → HotBottom s'

theorem Core.coolDown (hlim : c.cold ≤ c.hot) {need : Nat} (hn : 3 * need ≤ c.cold) : ∀ n s, Core c sz E s → HotBottom s ∨ hotBytes s + need ≤ c.hot →
    s.stack.length < n →
    Core c sz E (LIRS.coolDown c need n s) ∧ Cooled c need s (LIRS.coolDown c need n s) ∧
      (∀ x, OnTop x s → OnTop x (LIRS.coolDown c need n s)) ∧ (∀ x, x.2 = need → Queued c x s → Queued c x (LIRS.coolDown c need n s)) := by
  intro n
  induction n with
  | zero => intro s _ _ h; omega
  | succ n ih =>
    intro s h hb hlen
    unfold LIRS.coolDown
    by_cases hc : hotBytes s + need > c.hot
    · rw [if_pos hc]
      have hb' : HotBottom s := hb.resolve_right (by omega)
      obtain ⟨b, r1, r2, r3, r4, r5⟩ := h.round hlim hn hc hb'
      have := r3.len
      obtain ⟨i1, i2, i3, i4⟩ := ih _ r1 (Or.inl r2) (by omega)
      refine ⟨i1, ⟨i2.adm.trans r3.adm, i2.fits, i2.ids.trans r3.ids, ?_, fun hle => (by omega), fun _ => i2.bottom r2⟩,
        fun x hx => i3 x (r4 x hx), fun x hx hq => i4 x hx (r5 x hx hq)⟩
      obtain ⟨vs, hvs, _⟩ := r3.evicted
      obtain ⟨ws, hws⟩ := i2.evicted
      exact ⟨vs ++ ws, by rw [List.append_assoc]; exact hvs.trans (hws.append_left vs)⟩
    · rw [if_neg hc]
      exact ⟨h, ⟨rfl, by omega, List.Sublist.refl _, ⟨[], List.Perm.refl _⟩, fun _ => rfl, id⟩, fun _ h => h, fun _ _ h => h⟩

/-! ## The calls -/

/-- no block is exempt -/
abbrev noneE : ObjId → Prop := fun _ => False

/-- What holds between calls. -/
structure Inv (c : Limits) (sz : ObjId → Nat) (s : State) : Prop where
  core : Core c sz noneE s
  bottom : HotBottom s ∨ (s.stack = [] ∧ s.queue = [])

theorem inv_init (a : Adm) : Inv c sz { adm := a } := by
  refine ⟨⟨List.nodup_nil, List.nodup_nil, List.nodup_nil, ?_, ?_, ?_, ?_, ?_, ?_, Nat.zero_le _, Nat.zero_le _⟩, Or.inr ⟨rfl, rfl⟩⟩ <;> simp

theorem Inv.bottom' (h : Inv c sz s) {b : Block} (hb : b ∈ s.stack) : HotBottom s := by
  rcases h.bottom with h' | ⟨h', _⟩
  · exact h'
  · rw [h'] at hb; cases hb

theorem toTop_perm {l : List Block} (hn : (ids l).Nodup) {b : Block} (hb : b ∈ l) : (toTop b l).Perm l := by
  unfold toTop
  induction l with
  | nil => cases hb
  | cons d l ih =>
    simp only [ids, List.map_cons, List.nodup_cons] at hn
    rcases List.mem_cons.1 hb with rfl | hb'
    · rw [List.filter_cons_of_neg (by simp)]
      refine List.Perm.cons _ ?_
      rw [List.filter_eq_self.2]
      intro x hx
      simp only [ne_eq, decide_eq_true_eq]
      intro e
      exact hn.1 (List.mem_map.2 ⟨x, hx, e⟩)
    · have hne : d.id ≠ b.id := fun e => hn.1 (List.mem_map.2 ⟨b, hb', e.symm⟩)
      rw [List.filter_cons_of_pos (by simpa using hne)]
      exact (List.Perm.swap d b _).trans ((ih hn.2 hb').cons d)

theorem find_block {l : List Block} {i : ObjId} {b : Block} (h : l.find? (fun b => b.id = i) = some b) : b ∈ l ∧ b.id = i :=
  ⟨List.mem_of_find?_eq_some h, by simpa using List.find?_some h⟩

theorem find_none {l : List Block} {i : ObjId} : l.find? (fun b => b.id = i) = none ↔ i ∉ ids l := by
  rw [List.find?_eq_none]
  simp only [ids, List.mem_map, not_exists, not_and, decide_eq_true_eq]

/-- the stack in another order, other things the same -/
theorem Core.reorder (h : Core c sz E s) {l : List Block} (hp : l.Perm s.stack) : Core c sz E { s with stack := l } := by
  refine ⟨(hp.map _).nodup_iff.2 h.sn, h.qn, h.gn, fun b hb => h.hr b (hp.subset hb), fun b hb => h.eh b (hp.subset hb), fun b hb => h.cold b (hp.subset hb), ?_,
    fun b hb => h.szS b (hp.subset hb), h.szQ, ?_, h.coldLe⟩
  · intro x
    rw [h.gone x]
    exact ⟨fun ⟨b, hb, e⟩ => ⟨b, hp.symm.subset hb, e⟩, fun ⟨b, hb, e⟩ => ⟨b, hp.subset hb, e⟩⟩
  · have := h.hotLe
    rw [hotBytes_eq] at this ⊢
    show charge 0 (hotOf l) ≤ _
    rw [charge_perm (hotOf_perm hp)]; exact this

/-- a cold block on top leaves the bottom as it is -/
theorem toTop_bottom {l : List Block} {b : Block} (hb : b.hot = false) (h : ∃ l' d, l = l' ++ [d] ∧ d.hot = true) (hn : (ids l).Nodup) (hbl : b ∈ l) :
    ∃ l' d, toTop b l = l' ++ [d] ∧ d.hot = true := by
  obtain ⟨l', d, e, hd⟩ := h
  refine ⟨b :: l'.filter (fun x => x.id ≠ b.id), d, ?_, hd⟩
  have hne : d.id ≠ b.id := by
    intro e'
    have : d = b := eq_of_ids hn (by rw [e]; simp) hbl e'
    rw [this, hb] at hd
    cases hd
  unfold toTop
  rw [e, List.filter_append, List.filter_cons_of_pos (by simpa using hne)]
  rfl

theorem heat_ids (i : ObjId) (l : List Block) : ids (heat i l) = ids l := by
  unfold heat
  refine ids_map (fun b => ?_) l
  split <;> rfl

theorem mem_heat {i : ObjId} {l : List Block} {b : Block} (h : b ∈ heat i l) :
    ∃ d ∈ l, b.id = d.id ∧ b.size = d.size ∧ (d.id = i → b.hot = true ∧ b.resident = true) ∧ (d.id ≠ i → b = d) := by
  obtain ⟨d, hd, rfl⟩ := List.mem_map.1 h
  refine ⟨d, hd, ?_⟩
  split
  · rename_i e
    exact ⟨rfl, rfl, fun _ => ⟨rfl, rfl⟩, fun hn => absurd e hn⟩
  · rename_i e
    exact ⟨rfl, rfl, fun hn => absurd hn e, fun _ => rfl⟩

theorem heat_mem {i : ObjId} {l : List Block} {d : Block} (h : d ∈ l) (hd : d.id ≠ i) : d ∈ heat i l :=
  List.mem_map.2 ⟨d, h, by rw [if_neg hd]⟩

/-- the hot blocks after the cold block on top has become hot -/
theorem hotOf_heat {x : Block} {l : List Block} (hn : (ids (x :: l)).Nodup) (hx : x.hot = false) :
    hotOf (heat x.id (x :: l)) = (x.id, x.size) :: hotOf (x :: l) := by
  have e : heat x.id (x :: l) = { x with hot := true, resident := true } :: l := by
    unfold heat
    rw [List.map_cons, if_pos rfl]
    congr 1
    have : ∀ y ∈ l, (if y.id = x.id then { y with hot := true, resident := true } else y) = y := by
      intro y hy
      rw [if_neg]
      intro e
      simp only [ids, List.map_cons, List.nodup_cons] at hn
      exact hn.1 (List.mem_map.2 ⟨y, hy, e⟩)
    rw [List.map_congr_left this, List.map_id']
  rw [e, hotOf_cons, hotOf_cons, if_pos rfl, if_neg (by rw [hx]; simp)]

theorem heat_bottom {i : ObjId} {s : State} (h : HotBottom s) : ∃ l b, heat i s.stack = l ++ [b] ∧ b.hot = true := by
  obtain ⟨l, b, e, hb⟩ := h
  refine ⟨heat i l, (if b.id = i then { b with hot := true, resident := true } else b), ?_, ?_⟩
  · rw [e]; simp [heat]
  · split
    · rfl
    · exact hb

/-- The block on top becomes hot. -/
theorem Core.heat (h : Core c sz E s) {x : Block} (ht : OnTop x s) (hE : ∀ i, E i → i = x.id) (hroom : hotBytes s + x.size ≤ c.hot)
    (g : List ObjId) (hg : g = s.gone.filter (· ≠ x.id)) : Core c sz noneE { s with stack := LIRS.heat x.id s.stack, gone := g } := by
  obtain ⟨e1, e2, e3⟩ := ht
  obtain ⟨l, hl⟩ : ∃ l, s.stack = x :: l := by
    cases hs : s.stack with
    | nil => rw [hs] at e1; cases e1
    | cons d l => rw [hs] at e1; exact ⟨l, by injection e1 with e1; rw [e1]⟩
  have hxs : x ∈ s.stack := by rw [hl]; exact List.mem_cons_self
  refine ⟨by show (ids (LIRS.heat x.id s.stack)).Nodup; rw [heat_ids]; exact h.sn, h.qn, ?_, ?_, ?_, ?_, ?_, ?_, h.szQ, ?_, h.coldLe⟩
  · show g.Nodup
    rw [hg]; exact h.gn.filter _
  · intro b hb hh
    obtain ⟨d, hd, _, _, f1, f2⟩ := mem_heat hb
    by_cases e : d.id = x.id
    · exact (f1 e).2
    · rw [f2 e] at hh ⊢; exact h.hr d hd hh
  · intro b _ hE; exact hE.elim
  · intro b hb _
    obtain ⟨d, hd, f0, _, f1, f2⟩ := mem_heat hb
    by_cases e : d.id = x.id
    · constructor
      · intro hm
        exact absurd hm (by rw [f0, e]; exact e3)
      · intro hm
        rw [(f1 e).1] at hm
        cases hm.1
    · rw [f2 e]
      exact h.cold d hd (fun he => e (hE _ he))
  · intro y
    show y ∈ g ↔ _
    rw [hg, List.mem_filter, h.gone y]
    constructor
    · rintro ⟨⟨d, hd, e, hr⟩, hy⟩
      simp only [ne_eq, decide_eq_true_eq] at hy
      exact ⟨d, heat_mem hd (by rw [e]; exact hy), e, hr⟩
    · rintro ⟨b, hb, e, hr⟩
      obtain ⟨d, hd, f0, _, f1, f2⟩ := mem_heat hb
      by_cases ed : d.id = x.id
      · rw [(f1 ed).2] at hr; cases hr
      · have := f2 ed
        subst this
        exact ⟨⟨b, hd, e, hr⟩, by simpa [← e] using ed⟩
  · intro b hb
    obtain ⟨d, hd, f0, f1, _, _⟩ := mem_heat hb
    rw [f0, f1]; exact h.szS d hd
  · rw [hotBytes_eq] at hroom ⊢
    show charge 0 (hotOf (LIRS.heat x.id s.stack)) ≤ _
    have hsn := h.sn
    rw [hl] at hsn hroom ⊢
    rw [hotOf_heat hsn e2]
    simp only [charge]
    omega

theorem contents_heat {x : Block} (hn : (ids s.stack).Nodup) (ht : OnTop x s) (g : List ObjId) :
    contents { s with stack := LIRS.heat x.id s.stack, gone := g } = (x.id, x.size) :: contents s := by
  obtain ⟨e1, e2, e3⟩ := ht
  obtain ⟨l, hl⟩ : ∃ l, s.stack = x :: l := by
    cases hs : s.stack with
    | nil => rw [hs] at e1; cases e1
    | cons d l => rw [hs] at e1; exact ⟨l, by injection e1 with e1; rw [e1]⟩
  unfold contents
  show hotOf (LIRS.heat x.id s.stack) ++ s.queue = _
  rw [hl] at hn ⊢
  rw [hotOf_heat hn e2]
  rfl

theorem mem_contents (h : Core c sz noneE s) (i : ObjId) :
    i ∈ (contents s).ids ↔ (∃ b ∈ s.stack, b.id = i ∧ b.resident = true) ∨ i ∈ s.queue.ids := by
  unfold contents Contents.ids
  rw [List.map_append, List.mem_append]
  constructor
  · rintro (hm | hm)
    · obtain ⟨y, hy, rfl⟩ := List.mem_map.1 hm
      obtain ⟨d, hd, hh, rfl⟩ := mem_hotOf.1 hy
      exact Or.inl ⟨d, hd, rfl, h.hr d hd hh⟩
    · exact Or.inr hm
  · rintro (⟨b, hb, rfl, hr⟩ | hm)
    · by_cases hh : b.hot = true
      · exact Or.inl (List.mem_map.2 ⟨_, mem_hotOf.2 ⟨b, hb, hh, rfl⟩, rfl⟩)
      · exact Or.inr ((h.cold b hb (fun f => f)).2 ⟨by simpa using hh, hr⟩)
    · exact Or.inr hm

theorem filter_queue_perm {l : Contents} (hn : l.ids.Nodup) {x : ObjId × Nat} (hx : x ∈ l) : (x :: l.filter (fun y => y.1 ≠ x.1)).Perm l := by
  induction l with
  | nil => cases hx
  | cons d l ih =>
    simp only [Contents.ids, List.map_cons, List.nodup_cons] at hn
    rcases List.mem_cons.1 hx with rfl | hx'
    · rw [List.filter_cons_of_neg (by simp)]
      refine List.Perm.cons _ ?_
      rw [List.filter_eq_self.2]
      intro y hy
      simp only [ne_eq, decide_eq_true_eq]
      intro e
      exact hn.1 (List.mem_map.2 ⟨y, hy, e⟩)
    · have hne : d.1 ≠ x.1 := fun e => hn.1 (List.mem_map.2 ⟨x, hx', e.symm⟩)
      rw [List.filter_cons_of_pos (by simpa using hne)]
      exact (List.Perm.swap d x _).trans ((ih hn.2 hx').cons d)

/-- the state in which `coolDown` starts after a hit on a cold block of the stack -/
def leaveQueue (b : Block) (s : State) : State := { s with stack := toTop b s.stack, queue := s.queue.filter (fun x => x.1 ≠ b.id) }

theorem Inv.leaveQueue (h : Inv c sz s) {b : Block} (hb : b ∈ s.stack) (hc : b.hot = false) (hr : b.resident = true) :
    Core c sz (fun i => i = b.id) (leaveQueue b s) ∧ HotBottom (leaveQueue b s) ∧ OnTop b (leaveQueue b s) ∧
      (contents s).Perm ((b.id, b.size) :: contents (leaveQueue b s)) := by
  have hp := toTop_perm h.core.sn hb
  have h1 := h.core.reorder hp
  have hbq : b.id ∈ s.queue.ids := (h.core.cold b hb (fun f => f)).2 ⟨hc, hr⟩
  obtain ⟨x, hx, hxb⟩ := List.mem_map.1 hbq
  have hxs : x = (b.id, b.size) := by
    have e1 := (h.core.szQ x hx).1
    have e2 := (h.core.szS b hb).1
    rw [hxb] at e1
    exact Prod.ext hxb (by rw [e1, e2])
  have hqp := filter_queue_perm h.core.qn hx
  rw [hxs] at hqp
  have hout : b.id ∉ (s.queue.filter (fun x : ObjId × Nat => x.1 ≠ b.id)).map Prod.fst := by
    intro hm
    obtain ⟨y, hy, e⟩ := List.mem_map.1 hm
    have := (List.mem_filter.1 hy).2
    simp [e] at this
  refine ⟨?_, toTop_bottom hc (h.bottom' hb) h.core.sn hb, ⟨rfl, hc, hout⟩, ?_⟩
  · refine ⟨h1.sn, h1.qn.sublist (List.filter_sublist.map _), h1.gn, h1.hr, ?_, ?_, h1.gone, h1.szS, fun y hy => h1.szQ y (List.mem_of_mem_filter hy), h1.hotLe, ?_⟩
    · intro d hd e
      have : d = b := eq_of_ids h.core.sn (hp.subset hd) hb e
      rw [this]
      exact ⟨hc, hout⟩
    · intro d hd e
      rw [← h1.cold d hd (fun f => f)]
      constructor
      · intro hm
        obtain ⟨y, hy, ey⟩ := List.mem_map.1 hm
        exact List.mem_map.2 ⟨y, List.mem_of_mem_filter hy, ey⟩
      · intro hm
        obtain ⟨y, hy, ey⟩ := List.mem_map.1 hm
        exact List.mem_map.2 ⟨y, List.mem_filter.2 ⟨hy, by simpa [ey] using e⟩, ey⟩
    · have := h.core.coldLe
      rw [coldBytes_eq] at this ⊢
      exact Nat.le_trans (charge_sublist List.filter_sublist) this
  · show (hotOf s.stack ++ s.queue).Perm ((b.id, b.size) :: (hotOf (toTop b s.stack) ++ s.queue.filter (fun x => x.1 ≠ b.id)))
    refine List.Perm.trans ?_ (List.perm_middle (l₁ := hotOf (toTop b s.stack)))
    exact (hotOf_perm hp.symm).append hqp.symm

/-- What looking for an object does. -/
structure Looked (s s' : State) (i : ObjId) (hit : Bool) : Prop where
  adm : s'.adm = s.adm
  evicted : ∃ vs, (contents s).Perm (vs ++ contents s')
  miss : hit = false → (contents s).Perm (contents s') ∧ s'.queue = s.queue ∧ s'.stack.Perm s.stack ∧ s'.gone = s.gone ∧
    ∀ b ∈ s'.stack, b.id = i → s'.stack.head? = some b

theorem look_spec (hlim : c.cold ≤ c.hot) (h : Inv c sz s) (r : Req) :
    (look c s r).1 = decide (r.id ∈ (contents s).ids) ∧ Inv c sz (look c s r).2 ∧ Looked s (look c s r).2 r.id (look c s r).1 := by
  unfold look
  cases hf : s.stack.find? (fun b => b.id = r.id) with
  | some b =>
    obtain ⟨hb, hid⟩ := find_block hf
    have hp := toTop_perm h.core.sn hb
    simp only
    by_cases hh : b.hot = true
    · rw [if_pos hh]
      have hin : r.id ∈ (contents s).ids := (mem_contents h.core _).2 (Or.inl ⟨b, hb, hid, h.core.hr b hb hh⟩)
      have h1 := h.core.reorder hp
      have h2 := h1.cut (l := prune (toTop b s.stack)) (prune_prefix _) (hotOf_prune _)
      refine ⟨(decide_eq_true hin).symm, ⟨h2, Or.inl ?_⟩, rfl, ⟨[], ?_⟩, fun hx => (by cases hx)⟩
      · rw [hotBottom_iff]
        refine prune_last (l := toTop b s.stack) ?_
        intro e
        have : (b.id, b.size) ∈ hotOf (toTop b s.stack) := mem_hotOf.2 ⟨b, List.mem_cons_self, hh, rfl⟩
        rw [e] at this
        cases this
      · show (hotOf s.stack ++ s.queue).Perm (hotOf (prune (toTop b s.stack)) ++ s.queue)
        rw [hotOf_prune]
        exact (hotOf_perm hp.symm).append_right _
    · rw [if_neg hh]
      have hc : b.hot = false := by simpa using hh
      by_cases hr : b.resident = true
      · rw [if_pos hr]
        have hin : r.id ∈ (contents s).ids := (mem_contents h.core _).2 (Or.inl ⟨b, hb, hid, hr⟩)
        obtain ⟨q1, q2, q3, q4⟩ := h.leaveQueue hb hc hr
        have hlen : (leaveQueue b s).stack.length < s.stack.length + 1 := by rw [show (leaveQueue b s).stack.length = s.stack.length from hp.length_eq]; omega
        rw [← hid]
        obtain ⟨k1, k2, k3, _⟩ := Core.coolDown hlim (h.core.szS b hb).2.2 (s.stack.length + 1) (leaveQueue b s) q1 (Or.inl q2) hlen
        have e : (LIRS.coolDown c b.size (s.stack.length + 1) { s with stack := toTop b s.stack, queue := s.queue.filter (fun x => x.1 ≠ b.id) })
            = LIRS.coolDown c b.size (s.stack.length + 1) (leaveQueue b s) := rfl
        rw [e]
        generalize LIRS.coolDown c b.size (s.stack.length + 1) (leaveQueue b s) = t at k1 k2 k3
        have ht := k3 b q3
        have hbt : b ∈ t.stack := List.mem_of_mem_head? ht.1
        have hg : t.gone = t.gone.filter (· ≠ b.id) := by
          symm
          rw [List.filter_eq_self]
          intro y hy
          obtain ⟨d, hd, e, hr'⟩ := (k1.gone y).1 hy
          simp only [ne_eq, decide_eq_true_eq]
          intro e'
          have : d = b := eq_of_ids k1.sn hd hbt (e.trans e')
          rw [this, hr] at hr'
          cases hr'
        have k4 := k1.heat ht (fun _ e => e) k2.fits t.gone hg
        refine ⟨(decide_eq_true (by rw [hid]; exact hin)).symm, ⟨k4, Or.inl (heat_bottom (k2.bottom q2))⟩, k2.adm, ?_, fun hx => (by cases hx)⟩
        obtain ⟨vs, hvs⟩ := k2.evicted
        refine ⟨vs, ?_⟩
        have e2 := contents_heat k1.sn ht t.gone
        refine (q4.trans (hvs.cons _)).trans ?_
        refine List.perm_middle.symm.trans ?_
        rw [← e2]
      · rw [if_neg hr]
        have hr' : b.resident = false := by simpa using hr
        have hnin : r.id ∉ (contents s).ids := by
          intro hm
          rcases (mem_contents h.core _).1 hm with ⟨d, hd, e, hdr⟩ | hm
          · have : d = b := eq_of_ids h.core.sn hd hb (e.trans hid.symm)
            rw [this] at hdr
            exact hr hdr
          · rw [← hid] at hm
            exact hr ((h.core.cold b hb (fun f => f)).1 hm).2
        refine ⟨(decide_eq_false hnin).symm, ⟨h.core.reorder hp, Or.inl (toTop_bottom hc (h.bottom' hb) h.core.sn hb)⟩, rfl, ⟨[], ?_⟩, fun _ => ⟨?_, rfl, hp, rfl, ?_⟩⟩
        · exact (hotOf_perm hp.symm).append_right _
        · exact (hotOf_perm hp.symm).append_right _
        · intro d hd e
          have : d = b := eq_of_ids h.core.sn (hp.subset hd) hb (e.trans hid.symm)
          rw [this]
          rfl
  | none =>
    have hns := find_none.1 hf
    have hnb : ∀ b ∈ s.stack, b.id ≠ r.id := fun b hb e => hns (List.mem_map.2 ⟨b, hb, e⟩)
    simp only
    cases hq : s.queue.find? (fun x => x.1 = r.id) with
    | some x =>
      have hx : x ∈ s.queue := List.mem_of_find?_eq_some hq
      have hid : x.1 = r.id := by simpa using List.find?_some hq
      have hin : r.id ∈ (contents s).ids := (mem_contents h.core _).2 (Or.inr (List.mem_map.2 ⟨x, hx, hid⟩))
      have hqp := filter_queue_perm h.core.qn hx
      simp only
      rw [← hid] at hns hin ⊢
      have hbot : HotBottom s := by
        rcases h.bottom with h' | ⟨_, h'⟩
        · exact h'
        · rw [h'] at hx; cases hx
      have hmem : ∀ y, y ∈ (x :: s.queue.filter (fun y => y.1 ≠ x.1)).map Prod.fst ↔ y ∈ s.queue.ids := fun y => (hqp.map Prod.fst).mem_iff
      have h1 : Core c sz noneE { s with queue := x :: s.queue.filter (fun y => y.1 ≠ x.1) } := by
        refine ⟨h.core.sn, (hqp.map _).nodup_iff.2 h.core.qn, h.core.gn, h.core.hr, fun _ _ hE => hE.elim, ?_, h.core.gone, h.core.szS,
          fun y hy => h.core.szQ y (hqp.subset hy), h.core.hotLe, ?_⟩
        · intro b hb hE
          rw [← h.core.cold b hb hE]
          exact hmem b.id
        · have := h.core.coldLe
          rw [coldBytes_eq] at this ⊢
          show charge 0 (x :: s.queue.filter (fun y => y.1 ≠ x.1)) ≤ _
          rw [charge_perm hqp]; exact this
      have hQ : Queued c x { s with queue := x :: s.queue.filter (fun y => y.1 ≠ x.1) } :=
        ⟨⟨[], s.queue.filter (fun y => y.1 ≠ x.1), rfl, by simp only [charge, Nat.zero_add]; exact h1.hotLe⟩, hns⟩
      have hsz := h.core.szQ x hx
      obtain ⟨k1, k2, _, k3⟩ := Core.coolDown hlim hsz.2.2 (s.stack.length + 1) { s with queue := x :: s.queue.filter (fun y => y.1 ≠ x.1) } h1 (Or.inl hbot)
        (Nat.lt_succ_self _)
      generalize LIRS.coolDown c x.2 (s.stack.length + 1) { s with queue := x :: s.queue.filter (fun y => y.1 ≠ x.1) } = t at k1 k2 k3
      obtain ⟨⟨D, R, e, _⟩, ht⟩ := k3 x rfl hQ
      have hxt : x.1 ∈ t.queue.ids := by rw [e]; simp [Contents.ids]
      have hnt : ∀ b ∈ t.stack, b.id ≠ x.1 := fun b hb e => ht (List.mem_map.2 ⟨b, hb, e⟩)
      have hbt : HotBottom t := k2.bottom hbot
      have hct : contents { t with stack := ⟨x.1, x.2, false, true⟩ :: t.stack } = contents t := by
        unfold contents
        show hotOf (⟨x.1, x.2, false, true⟩ :: t.stack) ++ t.queue = _
        rw [hotOf_cons]
        rfl
      refine ⟨(decide_eq_true hin).symm, ⟨?_, Or.inl ?_⟩, k2.adm, ?_, fun hx => (by cases hx)⟩
      · refine ⟨List.nodup_cons.2 ⟨ht, k1.sn⟩, k1.qn, k1.gn, ?_, fun _ _ hE => hE.elim, ?_, ?_, ?_, k1.szQ, ?_, k1.coldLe⟩
        · intro b hb hh
          rcases List.mem_cons.1 hb with rfl | hb
          · rfl
          · exact k1.hr b hb hh
        · intro b hb hE
          rcases List.mem_cons.1 hb with rfl | hb
          · exact ⟨fun _ => ⟨rfl, rfl⟩, fun _ => hxt⟩
          · exact k1.cold b hb hE
        · intro y
          rw [k1.gone y]
          constructor
          · rintro ⟨b, hb, e⟩; exact ⟨b, List.mem_cons_of_mem _ hb, e⟩
          · rintro ⟨b, hb, e, hr⟩
            rcases List.mem_cons.1 hb with rfl | hb
            · cases hr
            · exact ⟨b, hb, e, hr⟩
        · intro b hb
          rcases List.mem_cons.1 hb with rfl | hb
          · exact hsz
          · exact k1.szS b hb
        · have := k1.hotLe
          rw [hotBytes_eq] at this ⊢
          show charge 0 (hotOf (⟨x.1, x.2, false, true⟩ :: t.stack)) ≤ _
          rw [hotOf_cons]; exact this
      · obtain ⟨l, b, e, hb⟩ := hbt
        exact ⟨⟨x.1, x.2, false, true⟩ :: l, b, by simp [e], hb⟩
      · obtain ⟨vs, hvs⟩ := k2.evicted
        refine ⟨vs, ?_⟩
        rw [hct]
        exact (hqp.symm.append_left _).trans hvs
    | none =>
      have hnq : r.id ∉ s.queue.ids := by
        rw [List.find?_eq_none] at hq
        intro hm
        obtain ⟨x, hx, e⟩ := List.mem_map.1 hm
        exact absurd (decide_eq_true e) (hq x hx)
      have hnin : r.id ∉ (contents s).ids := by
        intro hm
        rcases (mem_contents h.core _).1 hm with ⟨d, hd, e, _⟩ | hm
        · exact hnb d hd e
        · exact hnq hm
      exact ⟨(decide_eq_false hnin).symm, h, rfl, ⟨[], List.Perm.refl _⟩, fun _ => ⟨List.Perm.refl _, rfl, List.Perm.refl _, rfl, fun b hb e => absurd e (hnb b hb)⟩⟩

theorem Inv.withAdm (h : Inv c sz s) (a : Adm) : Inv c sz { s with adm := a } :=
  ⟨⟨h.core.sn, h.core.qn, h.core.gn, h.core.hr, h.core.eh, h.core.cold, h.core.gone, h.core.szS, h.core.szQ, h.core.hotLe, h.core.coldLe⟩, h.bottom⟩

/-- is a missed object admitted? -/
def admits (c : Limits) (s : State) (r : Req) : Prop := (s.adm.admit r).1 = true ∧ r.size ≤ c.cache ∧ r.size ≤ c.cold

/-- What the admission of a missed object does. -/
structure Admitted (c : Limits) (s : State) (r : Req) (s' : State) : Prop where
  adm : s'.adm = (s.adm.admit r).2
  yes : admits c s r → ∃ vs rest, (contents s).Perm (vs ++ rest) ∧ (contents s').Perm ((r.id, r.size) :: rest) ∧
    (r.id ∉ ids s.stack → (hotBytes s + r.size ≤ c.hot ∨ coldBytes s + r.size ≤ c.cold) → vs = [])
  no : ¬ admits c s r → (contents s).Perm (contents s')

theorem admit_spec (hlim : c.cold ≤ c.hot) (h : Inv c sz s) {r : Req} (hr : Third c sz r) (hout : r.id ∉ (contents s).ids)
    (htop : ∀ b ∈ s.stack, b.id = r.id → s.stack.head? = some b) : Inv c sz (admit c s r) ∧ Admitted c s r (admit c s r) := by
  unfold admit
  by_cases hrej : (s.adm.admit r).1 = false ∨ r.size > c.cache
  · rw [if_pos hrej]
    refine ⟨h.withAdm _, rfl, fun ha => ?_, fun _ => List.Perm.refl _⟩
    rcases hrej with e | e
    · rw [ha.1] at e; cases e
    · exact absurd ha.2.1 (by omega)
  · rw [if_neg hrej]
    unfold bring
    dsimp only
    have ha1 : (s.adm.admit r).1 = true := by
      cases e : (s.adm.admit r).1 with
      | true => rfl
      | false => exact absurd (Or.inl e) hrej
    have ha2 : r.size ≤ c.cache := by
      by_contra e
      exact hrej (Or.inr (by omega))
    have hs := h.withAdm (s.adm.admit r).2
    cases hf : s.stack.find? (fun b => b.id = r.id) with
    | some b =>
      obtain ⟨hb, hid⟩ := find_block hf
      have hnr : b.resident = false := by
        cases e : b.resident with
        | false => rfl
        | true => exact absurd ((mem_contents h.core _).2 (Or.inl ⟨b, hb, hid, e⟩)) hout
      have hc : b.hot = false := by
        cases e : b.hot with
        | false => rfl
        | true => have := h.core.hr b hb e; rw [hnr] at this; cases this
      have hnq : b.id ∉ s.queue.ids := fun hm => hout ((mem_contents h.core _).2 (Or.inr (by rw [← hid]; exact hm)))
      have hsz := h.core.szS b hb
      have hbr : b.size = r.size := by rw [hsz.1, hid, hr.1]
      have ht : OnTop b { s with adm := (s.adm.admit r).2 } := ⟨htop b hb hid, hc, hnq⟩
      have hbot : HotBottom { s with adm := (s.adm.admit r).2 } := h.bottom' hb
      obtain ⟨k1, k2, k3, _⟩ := Core.coolDown hlim hsz.2.2 (s.stack.length + 1) { s with adm := (s.adm.admit r).2 } hs.core (Or.inl hbot) (Nat.lt_succ_self _)
      have kt := k3 b ht
      simp only
      generalize LIRS.coolDown c b.size (s.stack.length + 1) { s with adm := (s.adm.admit r).2 } = t at k1 k2 kt
      have k4 := k1.heat kt (fun _ e => e.elim) k2.fits _ rfl
      have e2 := contents_heat k1.sn kt (t.gone.filter (· ≠ b.id))
      obtain ⟨vs, hvs⟩ := k2.evicted
      rw [← hid]
      refine ⟨⟨k4, Or.inl (heat_bottom (k2.bottom hbot))⟩, k2.adm, fun _ => ⟨vs, contents t, hvs, ?_, ?_⟩, fun hn => absurd ⟨ha1, ha2, by have := hsz.2.2; omega⟩ hn⟩
      · rw [e2, hbr, hid]
      · intro hx
        exact absurd (List.mem_map.2 ⟨b, hb, hid⟩) hx
    | none =>
      have hns := find_none.1 hf
      have hnq : r.id ∉ s.queue.ids := fun hm => hout ((mem_contents h.core _).2 (Or.inr hm))
      simp only
      by_cases hbig : r.size > c.hot ∨ r.size > c.cold
      · rw [if_pos hbig]
        exact ⟨hs, rfl, fun ha => absurd ha.2.2 (by omega), fun _ => List.Perm.refl _⟩
      · rw [if_neg hbig]
        have h3 : 3 * r.size ≤ c.cold := by have := hr.2.2; omega
        have hfit : SizeFits c sz r.id r.size := ⟨hr.1, hr.2.1, h3⟩
        have hcold : r.size ≤ c.cold := by omega
        by_cases hroom : hotBytes { s with adm := (s.adm.admit r).2 } + r.size ≤ c.hot
        · rw [if_pos hroom]
          have hq' : hotBytes { s with adm := (s.adm.admit r).2, stack := ⟨r.id, r.size, true, true⟩ :: s.stack } = hotBytes s + r.size := by
            rw [hotBytes_eq, hotBytes_eq]
            show charge 0 (hotOf (⟨r.id, r.size, true, true⟩ :: s.stack)) = _
            rw [hotOf_cons]
            simp [charge]; omega
          refine ⟨⟨?_, Or.inl ?_⟩, rfl, fun _ => ⟨[], contents s, List.Perm.refl _, ?_, fun _ _ => rfl⟩, fun hn => absurd ⟨ha1, ha2, hcold⟩ hn⟩
          · refine ⟨List.nodup_cons.2 ⟨hns, h.core.sn⟩, h.core.qn, h.core.gn, ?_, fun _ _ hE => hE.elim, ?_, ?_, ?_, h.core.szQ, ?_, h.core.coldLe⟩
            · intro b hb hh
              rcases List.mem_cons.1 hb with rfl | hb
              · rfl
              · exact h.core.hr b hb hh
            · intro b hb hE
              rcases List.mem_cons.1 hb with rfl | hb
              · exact ⟨fun hm => absurd hm hnq, fun hm => (by cases hm.1)⟩
              · exact h.core.cold b hb hE
            · intro y
              refine (h.core.gone y).trans ?_
              constructor
              · rintro ⟨b, hb, e⟩; exact ⟨b, List.mem_cons_of_mem _ hb, e⟩
              · rintro ⟨b, hb, e, hr⟩
                rcases List.mem_cons.1 hb with rfl | hb
                · cases hr
                · exact ⟨b, hb, e, hr⟩
            · intro b hb
              rcases List.mem_cons.1 hb with rfl | hb
              · exact hfit
              · exact h.core.szS b hb
            · exact hq'.le.trans hroom
          · rcases h.bottom with ⟨l, b, e, hb⟩ | ⟨e, _⟩
            · exact ⟨⟨r.id, r.size, true, true⟩ :: l, b, by simp [e], hb⟩
            · exact ⟨[], ⟨r.id, r.size, true, true⟩, by simp [e], rfl⟩
          · unfold contents
            show (hotOf (⟨r.id, r.size, true, true⟩ :: s.stack) ++ s.queue).Perm _
            rw [hotOf_cons]
            exact List.Perm.refl _
        · rw [if_neg hroom]
          have hbot : HotBottom s := by
            rcases h.bottom with hb | ⟨e, _⟩
            · exact hb
            · exfalso
              apply hroom
              rw [hotBytes_eq]
              show charge 0 (hotOf s.stack) + _ ≤ _
              rw [e]
              simp [hotOf, charge]; omega
          obtain ⟨k1, k2, k3, _⟩ := makeRoom_spec (need := r.size) hcold (s.queue.length + 1) { s with adm := (s.adm.admit r).2 } hs.core (Nat.lt_succ_self _)
          have ksame : coldBytes s + r.size ≤ c.cold → makeRoom c r.size (s.queue.length + 1) { s with adm := (s.adm.admit r).2 } = { s with adm := (s.adm.admit r).2 } := by
            intro hle
            unfold makeRoom
            exact if_neg (show ¬ (coldBytes s + r.size > c.cold) by omega)
          generalize makeRoom c r.size (s.queue.length + 1) { s with adm := (s.adm.admit r).2 } = t at k1 k2 k3 ksame
          have kq : t.queue <+: s.queue := k2.queue
          have hntq : r.id ∉ t.queue.ids := fun hm => hnq ((kq.sublist.map Prod.fst).subset hm)
          have hnts : r.id ∉ ids t.stack := by rw [k2.ids]; exact hns
          have hct : contents { t with stack := ⟨r.id, r.size, false, true⟩ :: t.stack, queue := (r.id, r.size) :: t.queue }
              = hotOf t.stack ++ (r.id, r.size) :: t.queue := by
            unfold contents
            show hotOf (⟨r.id, r.size, false, true⟩ :: t.stack) ++ (r.id, r.size) :: t.queue = _
            rw [hotOf_cons]
            rfl
          refine ⟨⟨?_, Or.inl ?_⟩, k2.adm, fun _ => ?_, fun hn => absurd ⟨ha1, ha2, hcold⟩ hn⟩
          · refine ⟨List.nodup_cons.2 ⟨hnts, k1.sn⟩, List.nodup_cons.2 ⟨hntq, k1.qn⟩, k1.gn, ?_, fun _ _ hE => hE.elim, ?_, ?_, ?_, ?_, ?_, ?_⟩
            · intro b hb hh
              rcases List.mem_cons.1 hb with rfl | hb
              · rfl
              · exact k1.hr b hb hh
            · intro b hb hE
              rcases List.mem_cons.1 hb with rfl | hb
              · exact ⟨fun _ => ⟨rfl, rfl⟩, fun _ => List.mem_cons_self⟩
              · have hne : b.id ≠ r.id := fun e => hnts (List.mem_map.2 ⟨b, hb, e⟩)
                rw [← k1.cold b hb hE]
                constructor
                · intro hm
                  rcases List.mem_cons.1 hm with e | hm
                  · exact absurd e hne
                  · exact hm
                · exact fun hm => List.mem_cons_of_mem _ hm
            · intro y
              refine (k1.gone y).trans ?_
              constructor
              · rintro ⟨b, hb, e⟩; exact ⟨b, List.mem_cons_of_mem _ hb, e⟩
              · rintro ⟨b, hb, e, hr⟩
                rcases List.mem_cons.1 hb with rfl | hb
                · cases hr
                · exact ⟨b, hb, e, hr⟩
            · intro b hb
              rcases List.mem_cons.1 hb with rfl | hb
              · exact hfit
              · exact k1.szS b hb
            · intro y hy
              rcases List.mem_cons.1 hy with rfl | hy
              · exact hfit
              · exact k1.szQ y hy
            · have := k1.hotLe
              rw [hotBytes_eq] at this ⊢
              show charge 0 (hotOf (⟨r.id, r.size, false, true⟩ :: t.stack)) ≤ _
              rw [hotOf_cons]; exact this
            · rw [coldBytes_eq] at k3 ⊢
              show charge 0 ((r.id, r.size) :: t.queue) ≤ _
              simp only [charge]
              omega
          · obtain ⟨l, b, e, hb⟩ := hbot
            have hlast : s.stack.getLast? = some b := by rw [e]; simp
            have hbs : b ∈ s.stack := List.mem_of_getLast? hlast
            have hl := k2.last b hlast hb h.core.qn (h.core.hotNotQueued hbs hb)
            obtain ⟨l', e'⟩ := List.getLast?_eq_some_iff.1 hl
            exact ⟨⟨r.id, r.size, false, true⟩ :: l', b, by simp [e'], hb⟩
          · obtain ⟨w, hw⟩ := kq
            refine ⟨w, contents t, ?_, ?_, fun _ hor => ?_⟩
            · unfold contents
              rw [show hotOf t.stack = hotOf s.stack from k2.hot, ← hw]
              exact (List.perm_append_comm_assoc (hotOf s.stack) w t.queue |>.symm.trans
                (List.Perm.append_left _ List.perm_append_comm)).symm.trans (List.Perm.refl _) |>.symm.symm
            · rw [hct]
              exact List.perm_middle
            · have hle : coldBytes s + r.size ≤ c.cold := by
                rcases hor with e | e
                · exact absurd e hroom
                · exact e
              have e := congrArg State.queue (ksame hle)
              have e' : t.queue = s.queue := e
              rw [e'] at hw
              exact List.append_right_eq_self.1 hw

theorem trim_spec : ∀ n s, Inv c sz s → Inv c sz (trim c n s) ∧ contents (trim c n s) = contents s ∧ (trim c n s).adm = s.adm := by
  intro n
  induction n with
  | zero => intro s h; exact ⟨h, rfl, rfl⟩
  | succ n ih =>
    intro s h
    unfold trim
    split
    · cases hg : s.gone.getLast? with
      | none => exact ⟨h, rfl, rfl⟩
      | some x =>
        simp only
        obtain ⟨g, hg'⟩ := List.getLast?_eq_some_iff.1 hg
        have hxg : x ∈ s.gone := List.mem_of_getLast? hg
        obtain ⟨d, hd, hdx, hdr⟩ := (h.core.gone x).1 hxg
        have hdc : d.hot = false := by
          cases e : d.hot with
          | false => rfl
          | true => have := h.core.hr d hd e; rw [hdr] at this; cases this
        have huniq : ∀ b ∈ s.stack, b.id = x → b = d := fun b hb e => eq_of_ids h.core.sn hb hd (e.trans hdx.symm)
        have hhot : hotOf (s.stack.filter (fun b => b.id ≠ x)) = hotOf s.stack := by
          unfold hotOf
          rw [List.filter_filter]
          congr 1
          refine List.filter_congr fun b hb => ?_
          by_cases e : b.id = x
          · have hbd := huniq b hb e
            rw [hbd, hdc]; simp
          · simp [e]
        have hgd : s.gone.dropLast = g := by rw [hg']; simp
        have hgn := h.core.gn
        rw [hg', List.nodup_append] at hgn
        have hxg' : x ∉ g := fun hm => hgn.2.2 x hm x (by simp) rfl
        have h' : Inv c sz { s with stack := s.stack.filter (fun b => b.id ≠ x), gone := s.gone.dropLast } := by
          refine ⟨⟨h.core.sn.sublist (List.filter_sublist.map _), h.core.qn, by rw [hgd]; exact hgn.1, fun b hb => h.core.hr b (List.mem_of_mem_filter hb),
            fun _ _ hE => hE.elim, fun b hb => h.core.cold b (List.mem_of_mem_filter hb), ?_, fun b hb => h.core.szS b (List.mem_of_mem_filter hb), h.core.szQ, ?_,
            h.core.coldLe⟩, ?_⟩
          · intro y
            rw [hgd]
            constructor
            · intro hy
              obtain ⟨b, hb, e, hr⟩ := (h.core.gone y).1 (by rw [hg']; exact List.mem_append_left _ hy)
              refine ⟨b, List.mem_filter.2 ⟨hb, ?_⟩, e, hr⟩
              simp only [ne_eq, decide_eq_true_eq]
              rintro rfl
              exact hxg' (e ▸ hy)
            · rintro ⟨b, hb, e, hr⟩
              have hm := (h.core.gone y).2 ⟨b, List.mem_of_mem_filter hb, e, hr⟩
              rw [hg'] at hm
              rcases List.mem_append.1 hm with hm | hm
              · exact hm
              · have hyx : y = x := by simpa using hm
                have := (List.mem_filter.1 hb).2
                simp [e, hyx] at this
          · have := h.core.hotLe
            rw [hotBytes_eq] at this ⊢
            show charge 0 (hotOf (s.stack.filter (fun b => b.id ≠ x))) ≤ _
            rw [hhot]; exact this
          · obtain ⟨l, b, e, hb⟩ := h.bottom' hd
            refine Or.inl ⟨l.filter (fun b => b.id ≠ x), b, ?_, hb⟩
            show s.stack.filter _ = _
            rw [e, List.filter_append, List.filter_cons_of_pos, List.filter_nil]
            simp only [ne_eq, decide_eq_true_eq]
            intro hbx
            have hbd := huniq b (by rw [e]; simp) hbx
            rw [hbd, hdc] at hb
            cases hb
        obtain ⟨i1, i2, i3⟩ := ih _ h'
        refine ⟨i1, i2.trans ?_, i3⟩
        show hotOf (s.stack.filter (fun b => b.id ≠ x)) ++ s.queue = _
        rw [hhot]
        rfl
    · exact ⟨h, rfl, rfl⟩

/-- What a `get` does. -/
structure Got (c : Limits) (s : State) (r : Req) (s' : State) (hit : Bool) : Prop where
  answer : hit = decide (r.id ∈ (contents s).ids)
  admHit : hit = true → s'.adm = s.adm
  admMiss : hit = false → s'.adm = (s.adm.admit r).2
  onHit : hit = true → ∃ vs, (contents s).Perm (vs ++ contents s')
  yes : hit = false → admits c s r → ∃ vs rest, (contents s).Perm (vs ++ rest) ∧ (contents s').Perm ((r.id, r.size) :: rest) ∧
    (r.id ∉ ids s.stack → (hotBytes s + r.size ≤ c.hot ∨ coldBytes s + r.size ≤ c.cold) → vs = [])
  no : hit = false → ¬ admits c s r → (contents s).Perm (contents s')

theorem get_spec (hlim : c.cold ≤ c.hot) (h : Inv c sz s) {r : Req} (hr : Third c sz r) :
    Inv c sz (get c s r).2 ∧ Got c s r (get c s r).2 (get c s r).1 := by
  obtain ⟨l1, l2, l3⟩ := look_spec hlim h r
  unfold get
  generalize look c s r = p at l1 l2 l3
  obtain ⟨hit, t⟩ := p
  simp only at l1 l2 l3 ⊢
  cases hit with
  | true =>
    rw [if_pos rfl]
    obtain ⟨t1, t2, t3⟩ := trim_spec t.gone.length t l2
    refine ⟨t1, l1, fun _ => t3.trans l3.adm, fun hx => (by cases hx), fun _ => ?_, fun hx => (by cases hx), fun hx => (by cases hx)⟩
    rw [t2]; exact l3.evicted
  | false =>
    rw [if_neg (by simp)]
    obtain ⟨m1, m2, m3, m4, m5⟩ := l3.miss rfl
    have hout : r.id ∉ (contents t).ids := fun hm => of_decide_eq_false l1.symm ((m1.map Prod.fst).symm.subset hm)
    obtain ⟨a1, a2⟩ := admit_spec hlim l2 hr hout m5
    obtain ⟨t1, t2, t3⟩ := trim_spec (admit c t r).gone.length _ a1
    have hadm : admits c t r ↔ admits c s r := by unfold admits; rw [l3.adm]
    refine ⟨t1, l1, fun hx => (by cases hx), fun _ => ?_, fun hx => (by cases hx), fun _ ha => ?_, fun _ ha => ?_⟩
    · rw [t3, a2.adm, l3.adm]
    · obtain ⟨vs, rest, y1, y2, y3⟩ := a2.yes (hadm.2 ha)
      refine ⟨vs, rest, m1.trans y1, by rw [t2]; exact y2, fun hx hor => y3 ?_ ?_⟩
      · intro hm
        exact hx ((m3.map (·.id)).subset hm)
      · have e1 : hotBytes t = hotBytes s := by
          rw [hotBytes_eq, hotBytes_eq]; exact charge_perm (hotOf_perm m3)
        have e2 : coldBytes t = coldBytes s := by unfold coldBytes; rw [m2]
        rw [e1, e2]; exact hor
    · rw [t2]; exact m1.trans (a2.no (fun hx => ha (hadm.1 hx)))

theorem capacity (h : Inv c sz s) : bytes 0 (contents s) ≤ c.hot + c.cold := by
  have h1 := h.core.hotLe
  have h2 := h.core.coldLe
  rw [hotBytes_eq] at h1
  rw [coldBytes_eq] at h2
  rw [bytes_eq_charge]
  unfold contents
  rw [charge_append]
  omega

end Verif.Spec.LIRS
