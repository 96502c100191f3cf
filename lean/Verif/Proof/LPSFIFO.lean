import Verif.Algo.LPSFIFO
import Verif.Spec.LazySegments
import Verif.Proof.QRep
import Verif.Base.Medium
/-!
# LP_SFIFO keeps its segments as specified
-/

namespace Verif.LPSFIFO
open Verif Spec
open Verif.Spec.LazySegments (Sizes ids put)

def item (o : Obj Nat) : Item := ⟨o.id, o.size, o.mt⟩

/-! ### lists of items -/

theorem size_eq (l : List Item) : LazySegments.size l = (l.map Item.size).sum := by
  simp [LazySegments.size, bytes, Function.comp_def]

@[simp] theorem size_nil : LazySegments.size [] = 0 := rfl
@[simp] theorem size_cons (x : Item) (l : List Item) : LazySegments.size (x :: l) = x.size + LazySegments.size l := by simp [size_eq]
@[simp] theorem size_append (l l' : List Item) : LazySegments.size (l ++ l') = LazySegments.size l + LazySegments.size l' := by simp [size_eq]

theorem size_perm {l l' : List Item} (h : l.Perm l') : LazySegments.size l = LazySegments.size l' := by
  rw [size_eq, size_eq]; exact (h.map _).sum_nat

theorem size_items (l : List (Obj Nat)) : charge 0 (cont l) = LazySegments.size (l.map item) := by
  induction l with
  | nil => rfl
  | cons o l ih => simp [charge, ih, item]

theorem ids_items (l : List (Obj Nat)) : ids (l.map item) = l.map (·.id) := by simp [ids, item, Function.comp_def]

theorem keep_fits (l : List Item) : ∀ room, LazySegments.size l ≤ room → LazySegments.keep room l = l := by
  induction l with
  | nil => intro _ _; rfl
  | cons x l ih =>
    intro room h
    rw [size_cons] at h
    rw [LazySegments.keep, if_pos (by omega), ih _ (by omega)]

theorem keep_last (x : Item) (l : List Item) : ∀ room, room < LazySegments.size (l ++ [x]) → LazySegments.keep room (l ++ [x]) = LazySegments.keep room l := by
  induction l with
  | nil =>
    intro room h
    simp only [List.nil_append, size_cons, size_nil] at h
    rw [List.nil_append]
    exact if_neg (by omega)
  | cons y l ih =>
    intro room h
    rw [List.cons_append, size_cons] at h
    rw [List.cons_append, LazySegments.keep, LazySegments.keep]
    split
    · rw [ih _ (by omega)]
    · rfl

theorem keep_size (l : List Item) : ∀ room, LazySegments.size (LazySegments.keep room l) ≤ room := by
  induction l with
  | nil => intro room; exact Nat.zero_le _
  | cons x l ih =>
    intro room
    rw [LazySegments.keep]
    split
    · have := ih (room - x.size)
      rw [size_cons]; omega
    · exact Nat.zero_le _

theorem keep_prefix (l : List Item) : ∀ room, LazySegments.keep room l <+: l := by
  induction l with
  | nil => intro _; exact List.prefix_refl _
  | cons x l ih =>
    intro room
    rw [LazySegments.keep]
    split
    · exact (List.prefix_cons_inj _).2 (ih _)
    · exact List.nil_prefix

theorem keep_spill (room : Nat) (l : List Item) : LazySegments.keep room l ++ LazySegments.spill room l = l := by
  obtain ⟨t, h⟩ := keep_prefix l room
  rw [LazySegments.spill]
  conv => lhs; rhs; rhs; rw [← h]
  rw [List.drop_left, h]

theorem spill_fits {l : List Item} {room : Nat} (h : LazySegments.size l ≤ room) : LazySegments.spill room l = [] := by
  rw [LazySegments.spill, keep_fits _ _ h, List.drop_length]

theorem spill_last {x : Item} {l : List Item} {room : Nat} (h : room < LazySegments.size (l ++ [x])) :
    LazySegments.spill room (l ++ [x]) = LazySegments.spill room l ++ [x] := by
  rw [LazySegments.spill, keep_last x l room h, LazySegments.spill, List.drop_append_of_le_length (keep_prefix l room).length_le]

/-! ### all segments -/

section
variable {z : Sizes} {a : LazySegments.Segs} {s : State}

/-- the objects of the other segments -/
def rest (z : Sizes) (a : LazySegments.Segs) (k : Nat) : List Item := ((List.range z.n).erase k).flatMap a

theorem all_split {k : Nat} (hk : k < z.n) : (LazySegments.all z a).Perm (a k ++ rest z a k) := by
  have : (List.range z.n).Perm (k :: (List.range z.n).erase k) := List.perm_cons_erase (List.mem_range.2 hk)
  exact this.flatMap_right a

theorem rest_congr {a b : LazySegments.Segs} {k : Nat} (h : ∀ j, j ≠ k → a j = b j) : rest z a k = rest z b k := by
  rw [rest, rest]
  apply List.flatMap_congr
  intro j hj
  apply h
  intro e
  subst e
  exact (List.nodup_range.not_mem_erase) hj

theorem put_same (a : LazySegments.Segs) (k : Nat) (l : List Item) : put a k l k = l := if_pos rfl
theorem put_other (a : LazySegments.Segs) {k j : Nat} (h : j ≠ k) (l : List Item) : put a k l j = a j := if_neg h

theorem all_put {k : Nat} (hk : k < z.n) (l : List Item) : (LazySegments.all z (put a k l)).Perm (l ++ rest z a k) := by
  refine (all_split hk).trans ?_
  rw [put_same, rest_congr (fun j hj => put_other a hj l)]

theorem all_push {k : Nat} (hk : k < z.n) (x : Item) : (LazySegments.all z (LazySegments.push a k x)).Perm (x :: LazySegments.all z a) :=
  (all_put hk _).trans ((all_split hk).symm.cons x)

theorem all_last {k : Nat} (hk : k < z.n) {c : List Item} {x : Item} (e : a k = c ++ [x]) : (LazySegments.all z a).Perm (x :: LazySegments.all z (put a k c)) := by
  refine (all_split hk).trans ?_
  rw [e, List.append_assoc]
  exact List.perm_middle.trans ((all_put hk c).symm.cons x)

theorem mem_all {x : Item} : x ∈ LazySegments.all z a ↔ ∃ k, k < z.n ∧ x ∈ a k := by
  simp [LazySegments.all, List.mem_flatMap]

theorem mem_ids {id : ObjId} : id ∈ ids (LazySegments.all z a) ↔ ∃ k, k < z.n ∧ id ∈ ids (a k) := by
  simp only [ids, List.mem_map, mem_all]
  constructor
  · rintro ⟨x, ⟨k, hk, hx⟩, rfl⟩; exact ⟨k, hk, x, hx, rfl⟩
  · rintro ⟨k, hk, x, hx, rfl⟩; exact ⟨x, ⟨k, hk, hx⟩, rfl⟩

theorem size_flat (a : LazySegments.Segs) : ∀ l : List Nat, LazySegments.size (l.flatMap a) = (l.map (fun i => LazySegments.size (a i))).sum := by
  intro l
  induction l with
  | nil => rfl
  | cons i l ih => simp [ih]

/-! ### segments of the state -/

structure Arr (z : Sizes) (a : LazySegments.Segs) (s : State) : Prop where
  n : s.n = z.n
  lim : s.lim = z.lim
  csz : s.base.cacheSize = z.cache
  mdz : s.base.objMd = 0
  occz : s.base.occ = 0
  rep : ∀ k, k < z.n → ∃ l, Rep (z.lim k) 0 (s.seg k) l ∧ l.map item = a k
  out : ∀ k, z.n ≤ k → a k = []

theorem Arr.seg_occ (h : Arr z a s) {k : Nat} (hk : k < z.n) : (s.seg k).base.occ = (LazySegments.size (a k) : Nat) := by
  obtain ⟨l, h1, h2⟩ := h.rep k hk
  rw [h1.occ, size_items, h2]

theorem Arr.seg_q (h : Arr z a s) {k : Nat} (hk : k < z.n) : (s.seg k).q = ids (a k) := by
  obtain ⟨l, h1, h2⟩ := h.rep k hk
  rw [h1.q, ← h2, ids_items]

theorem Arr.put (h : Arr z a s) {k : Nat} (hk : k < z.n) {q : QState Nat} {l : List (Obj Nat)} (hq : Rep (z.lim k) 0 q l) :
    Arr z (put a k (l.map item)) { s with seg := upd s.seg k q } := by
  refine ⟨h.n, h.lim, h.csz, h.mdz, h.occz, ?_, ?_⟩
  · intro j hj
    by_cases e : j = k
    · subst e
      refine ⟨l, ?_, (put_same _ _ _).symm⟩
      simpa [upd] using hq
    · obtain ⟨l', h1, h2⟩ := h.rep j hj
      refine ⟨l', ?_, by rw [put_other _ e]; exact h2⟩
      simpa [upd, e] using h1
  · intro j hj
    rw [put_other _ (by omega)]; exact h.out j hj

theorem Arr.last (h : Arr z a s) {k : Nat} (hk : k < z.n) {c : List Item} {x : Item} (e : a k = c ++ [x]) :
    ∃ o q, (s.seg k).tailObj = .ok o ∧ (s.seg k).evictTail = .ok q ∧ item o = x ∧ o.size < u32 ∧ Arr z (LazySegments.put a k c) { s with seg := upd s.seg k q } := by
  obtain ⟨l, h1, h2⟩ := h.rep k hk
  rw [e] at h2
  obtain ⟨l', t, rfl, h3, h4⟩ := List.map_eq_append_iff.1 h2
  obtain ⟨o, rfl, h5⟩ := List.map_eq_singleton_iff.1 h4
  obtain ⟨q, h6, h7⟩ := h1.evictTail rfl
  refine ⟨o, q, h1.tailObj rfl, h6, h5, ?_, ?_⟩
  · have := h1.small o (by simp); omega
  · rw [← h3]; exact h.put hk h7

theorem Arr.push (h : Arr z a s) {k : Nat} (hk : k < z.n) (r : Req) (f : Nat) (hn : r.id ∉ ids (a k)) :
    ∃ q, (s.seg k).insert f r = .ok q ∧ Arr z (LazySegments.push a k ⟨r.id, r.size % u32, f⟩) { s with seg := upd s.seg k q } := by
  obtain ⟨l, h1, h2⟩ := h.rep k hk
  rw [← h2, ids_items] at hn
  obtain ⟨q, h3, h4⟩ := h1.insert f r hn (by show r.size % u32 + 0 < u32; exact Nat.mod_lt _ (by decide))
  refine ⟨q, h3, ?_⟩
  have := h.put hk h4
  rw [List.map_cons, h2] at this
  exact this

theorem Arr.over_iff (h : Arr z a s) {k : Nat} (hk : k < z.n) : over s k = true ↔ z.lim k < LazySegments.size (a k) := by
  rw [over, decide_eq_true_iff, h.seg_occ hk, h.lim]; omega

theorem Arr.occ (h : Arr z a s) : occ s = (LazySegments.size (LazySegments.all z a) : Nat) := by
  have key : ∀ l : List Nat, (∀ i ∈ l, i < z.n) → (l.map (fun i => (s.seg i).base.occ)).sum = ((l.map (fun i => LazySegments.size (a i))).sum : Nat) := by
    intro l
    induction l with
    | nil => intro _; rfl
    | cons i l ih =>
      intro hl
      rw [List.map_cons, List.map_cons, List.sum_cons, List.sum_cons, ih (fun j hj => hl j (by simp [hj])), h.seg_occ (hl i (by simp))]
      push_cast; rfl
  rw [LPSFIFO.occ, h.n, key _ (fun i hi => List.mem_range.1 hi), LazySegments.all, size_flat]

theorem Arr.count (h : Arr z a s) : count s = (LazySegments.all z a).length := by
  have key : ∀ l : List Nat, (∀ i ∈ l, i < z.n) → (l.map (fun i => (s.seg i).q.length)).sum = (l.flatMap a).length := by
    intro l
    induction l with
    | nil => intro _; rfl
    | cons i l ih =>
      intro hl
      rw [List.map_cons, List.sum_cons, ih (fun j hj => hl j (by simp [hj])), h.seg_q (hl i (by simp))]
      simp [ids]
  rw [LPSFIFO.count, h.n, key _ (fun i hi => List.mem_range.1 hi), LazySegments.all]

/-- no object twice -/
abbrev Nd (z : Sizes) (a : LazySegments.Segs) : Prop := (ids (LazySegments.all z a)).Nodup

theorem Nd.perm {b : LazySegments.Segs} (h : Nd z a) (hp : (LazySegments.all z b).Perm (LazySegments.all z a)) : Nd z b := (hp.map _).nodup_iff.2 h

/-- what a movement inside the cache keeps -/
structure Moved (z : Sizes) (a b : LazySegments.Segs) (s s' : State) : Prop where
  arr : Arr z b s'
  perm : (LazySegments.all z b).Perm (LazySegments.all z a)
  base : s'.base = s.base

theorem step_pass (h : Arr z a s) (hn : Nd z a) {k : Nat} (hk : k + 1 < z.n) {c : List Item} {x : Item} (e : a (k + 1) = c ++ [x]) :
    ∃ o q q', (s.seg (k + 1)).tailObj = .ok o ∧ (s.seg (k + 1)).evictTail = .ok q ∧ (s.seg k).insert o.mt o.toReq = .ok q' ∧
      Moved z a (LazySegments.push (LazySegments.put a (k + 1) c) k x) s { s with seg := upd (upd s.seg (k + 1) q) k q' } := by
  obtain ⟨o, q, h1, h2, h3, h4, h5⟩ := h.last hk e
  have hp := all_last hk e
  have hnx : x.id ∉ ids (LazySegments.put a (k + 1) c k) := by
    have := (hp.map Item.id).nodup_iff.1 hn
    rw [List.map_cons, List.nodup_cons] at this
    exact fun hm => this.1 (mem_ids.2 ⟨k, by omega, hm⟩)
  have hid : o.toReq.id = x.id := by rw [← h3]; rfl
  obtain ⟨q', h6, h7⟩ := h5.push (k := k) (by omega) o.toReq o.mt (by rw [hid]; exact hnx)
  have hx : (⟨o.toReq.id, o.toReq.size % u32, o.mt⟩ : Item) = x := by
    rw [← h3]; show (⟨o.id, o.size % u32, o.mt⟩ : Item) = _; rw [Nat.mod_eq_of_lt h4]; rfl
  rw [hx] at h7
  have hne : (upd s.seg (k + 1) q) k = s.seg k := by simp [upd]
  dsimp only at h6
  rw [hne] at h6
  refine ⟨o, q, q', h1, h2, h6, h7, ?_, rfl⟩
  exact (all_push (by omega) x).trans hp.symm

theorem pass_spec {k : Nat} (hk : k + 1 < z.n) : ∀ m (a : LazySegments.Segs) (s : State), Arr z a s → Nd z a → (a (k + 1)).length ≤ m →
    ∃ s', pass k m s = .ok s' ∧ Moved z a (LazySegments.put (LazySegments.put a (k + 1) (LazySegments.keep (z.lim (k + 1)) (a (k + 1)))) k
      (LazySegments.spill (z.lim (k + 1)) (a (k + 1)) ++ a k)) s s' := by
  have fits : ∀ (a : LazySegments.Segs), LazySegments.size (a (k + 1)) ≤ z.lim (k + 1) →
      LazySegments.put (LazySegments.put a (k + 1) (LazySegments.keep (z.lim (k + 1)) (a (k + 1)))) k (LazySegments.spill (z.lim (k + 1)) (a (k + 1)) ++ a k) = a := by
    intro a h
    rw [keep_fits _ _ h, spill_fits h]
    funext j
    by_cases e : j = k
    · rw [e, put_same]; rfl
    · rw [put_other _ e]
      by_cases e' : j = k + 1
      · rw [e', put_same]
      · rw [put_other _ e']
  intro m
  induction m with
  | zero =>
    intro a s h hn hm
    have he : a (k + 1) = [] := List.length_eq_zero_iff.1 (by omega)
    have hf : LazySegments.size (a (k + 1)) ≤ z.lim (k + 1) := by rw [he]; exact Nat.zero_le _
    have ho : over s (k + 1) = false := by
      by_contra hc
      have := (h.over_iff hk).1 (by simpa using hc)
      omega
    rw [fits a hf]
    exact ⟨s, by simp [pass, ho], h, List.Perm.refl _, rfl⟩
  | succ m ih =>
    intro a s h hn hm
    cases ho : over s (k + 1) with
    | false =>
      have hf : LazySegments.size (a (k + 1)) ≤ z.lim (k + 1) := by
        by_contra hc
        have := (h.over_iff hk).2 (by omega)
        rw [ho] at this; cases this
      rw [fits a hf]
      exact ⟨s, by simp [pass, ho], h, List.Perm.refl _, rfl⟩
    | true =>
      have hlt := (h.over_iff hk).1 ho
      rcases List.eq_nil_or_concat' (a (k + 1)) with e | ⟨c, x, e⟩
      · rw [e] at hlt; simp at hlt
      · obtain ⟨o, q, q', h1, h2, h3, h4⟩ := step_pass h hn hk e
        obtain ⟨s', k1, k2⟩ := ih _ _ h4.arr (hn.perm h4.perm) (by
          rw [LazySegments.push, put_other _ (by omega), put_same]
          rw [e] at hm; simp at hm; omega)
        refine ⟨s', ?_, ?_⟩
        · rw [pass]
          simp only [ho, if_true, h1, h2, h3, Res.bind_ok, k1]
        · have ea : (LazySegments.push (LazySegments.put a (k + 1) c) k x) (k + 1) = c := by
            rw [LazySegments.push, put_other _ (by omega), put_same]
          have eb : (LazySegments.push (LazySegments.put a (k + 1) c) k x) k = x :: a k := by
            rw [LazySegments.push, put_same, put_other _ (by omega)]
          have key : LazySegments.put (LazySegments.put (LazySegments.push (LazySegments.put a (k + 1) c) k x) (k + 1)
              (LazySegments.keep (z.lim (k + 1)) c)) k (LazySegments.spill (z.lim (k + 1)) c ++ x :: a k) =
              LazySegments.put (LazySegments.put a (k + 1) (LazySegments.keep (z.lim (k + 1)) (a (k + 1)))) k
                (LazySegments.spill (z.lim (k + 1)) (a (k + 1)) ++ a k) := by
            rw [e] at hlt
            rw [e, keep_last x c _ hlt, spill_last hlt]
            funext j
            by_cases e1 : j = k
            · rw [e1, put_same, put_same, List.append_assoc]; rfl
            · rw [put_other _ e1, put_other _ e1]
              by_cases e2 : j = k + 1
              · rw [e2, put_same, put_same]
              · rw [put_other _ e2, put_other _ e2, LazySegments.push, put_other _ e1, put_other _ e2]
          rw [ea, eb, key] at k2
          exact ⟨k2.arr, k2.perm.trans h4.perm, k2.base.trans h4.base⟩

theorem demote_spec : ∀ k (a : LazySegments.Segs) (s : State), k < z.n → Arr z a s → Nd z a → LazySegments.size (LazySegments.all z a) ≤ z.cache →
    ∃ s', (if over s k = true then demote k s else .ok s) = .ok s' ∧ Moved z a (LazySegments.settle z k a) s s' := by
  intro k
  induction k with
  | zero =>
    intro a s hk h hn hc
    refine ⟨s, ?_, h, List.Perm.refl _, rfl⟩
    have : LPSFIFO.occ s ≤ (s.base.cacheSize : Int) := by rw [h.occ, h.csz]; exact_mod_cast hc
    simp [demote, this]
  | succ k ih =>
    intro a s hk h hn hc
    cases ho : over s (k + 1) with
    | false =>
      have hf : ¬ LazySegments.size (a (k + 1)) > z.lim (k + 1) := by
        intro hc
        have := (h.over_iff hk).2 (by omega)
        rw [ho] at this; cases this
      rw [LazySegments.settle, if_neg hf]
      exact ⟨s, rfl, h, List.Perm.refl _, rfl⟩
    | true =>
      have hlt := (h.over_iff hk).1 ho
      obtain ⟨s1, h1, h2⟩ := pass_spec hk (s.seg (k + 1)).q.length a s h hn (by rw [h.seg_q hk]; simp [ids])
      obtain ⟨s', k1, k2⟩ := ih _ s1 (by omega) h2.arr (hn.perm h2.perm) (by rw [size_perm h2.perm]; exact hc)
      refine ⟨s', ?_, ?_⟩
      · rw [if_pos rfl, demote]
        simp only [h1, Res.bind_ok]; exact k1
      · rw [LazySegments.settle, if_pos hlt]
        exact ⟨k2.arr, k2.perm.trans h2.perm, k2.base.trans h2.base⟩

/-- no segment but the lowest holds more than its limit -/
def Within (z : Sizes) (a : LazySegments.Segs) : Prop := ∀ i, 1 ≤ i → LazySegments.size (a i) ≤ z.lim i

theorem settle_within : ∀ k (a : LazySegments.Segs), (∀ i, 1 ≤ i → i ≠ k → LazySegments.size (a i) ≤ z.lim i) → Within z (LazySegments.settle z k a) := by
  intro k
  induction k with
  | zero => intro a h i hi; exact h i hi (by omega)
  | succ k ih =>
    intro a h
    rw [LazySegments.settle]
    split
    · apply ih
      intro i hi hne
      rw [put_other _ hne]
      by_cases e : i = k + 1
      · rw [e, put_same]; exact keep_size _ _
      · rw [put_other _ e]; exact h i hi e
    · intro i hi
      by_cases e : i = k + 1
      · rw [e]; omega
      · exact h i hi e

/-- the sizes are those of a cache -/
structure Fits (z : Sizes) : Prop where
  pos : 0 < z.n
  sum : ((List.range z.n).map z.lim).sum ≤ z.cache

structure Abs (z : Sizes) (a : LazySegments.Segs) (s : State) : Prop where
  arr : Arr z a s
  nd : Nd z a
  within : Within z a
  cap : LazySegments.size (LazySegments.all z a) ≤ z.cache

/-- the effect of an eviction: an object without hits goes, or the hits of one are forgotten -/
def Effect (z : Sizes) (a b : LazySegments.Segs) : Prop :=
  ∃ x l, (LazySegments.all z a).Perm (x :: l) ∧
    ((x.cnt = 0 ∧ (LazySegments.all z b).Perm l) ∨ (x.cnt ≠ 0 ∧ (LazySegments.all z b).Perm ({ x with cnt := 0 } :: l)))

theorem Abs.evict (hz : Fits z) (h : Abs z a s) (hp : 0 < LazySegments.size (a 0)) :
    ∃ s', evict s = .ok s' ∧ Abs z (LazySegments.evict z a) s' ∧ s'.base = s.base ∧ Effect z a (LazySegments.evict z a) := by
  have h0 := hz.pos
  rcases List.eq_nil_or_concat' (a 0) with e | ⟨c, x, e⟩
  · rw [e] at hp; simp at hp
  · obtain ⟨o, q, k1, k2, k3, k4, k5⟩ := h.arr.last h0 e
    have hall := all_last h0 e
    have hocc : (s.seg 0).base.occ > 0 := by rw [h.arr.seg_occ h0]; exact_mod_cast hp
    have hx : o.mt = x.cnt := by rw [← k3]; rfl
    have eq : LazySegments.evict z a = if x.cnt = 0 then LazySegments.put a 0 c else
        LazySegments.settle z (min x.cnt (z.n - 1)) (LazySegments.push (LazySegments.put a 0 c) (min x.cnt (z.n - 1)) { x with cnt := 0 }) := by
      rw [LazySegments.evict, e]; simp
    by_cases hc : x.cnt = 0
    · rw [eq, if_pos hc]
      refine ⟨{ s with seg := upd s.seg 0 q }, ?_, ⟨k5, ?_, ?_, ?_⟩, rfl, ⟨x, _, hall, Or.inl ⟨hc, List.Perm.refl _⟩⟩⟩
      · simp [LPSFIFO.evict, hocc, k1, k2, hx, hc]
      · have := (hall.map Item.id).nodup_iff.1 h.nd
        exact (List.nodup_cons.1 this).2
      · intro i hi; rw [put_other _ (by omega)]; exact h.within i hi
      · have := size_perm hall
        rw [size_cons] at this
        have := h.cap; omega
    · rw [eq, if_neg hc]
      have hj : (if x.cnt ≥ s.n then s.n - 1 else x.cnt) = min x.cnt (z.n - 1) := by have := h.arr.n; split <;> omega
      generalize hjj : min x.cnt (z.n - 1) = j at hj ⊢
      have hjn : j < z.n := by omega
      have hnd := (hall.map Item.id).nodup_iff.1 h.nd
      rw [List.map_cons, List.nodup_cons] at hnd
      have hid : o.toReq.id = x.id := by rw [← k3]; rfl
      obtain ⟨q', j1, j2⟩ := k5.push hjn o.toReq 0 (by rw [hid]; exact fun hm => hnd.1 (mem_ids.2 ⟨j, hjn, hm⟩))
      have hxx : (⟨o.toReq.id, o.toReq.size % u32, 0⟩ : Item) = { x with cnt := 0 } := by
        rw [← k3]; show (⟨o.id, o.size % u32, 0⟩ : Item) = _; rw [Nat.mod_eq_of_lt k4]; rfl
      rw [hxx] at j2
      have hpush := all_push (a := LazySegments.put a 0 c) hjn { x with cnt := 0 }
      have hnd2 : Nd z (LazySegments.push (LazySegments.put a 0 c) j { x with cnt := 0 }) := by
        refine (hpush.map Item.id).nodup_iff.2 ?_
        rw [List.map_cons, List.nodup_cons]; exact hnd
      have hcap2 : LazySegments.size (LazySegments.all z (LazySegments.push (LazySegments.put a 0 c) j { x with cnt := 0 })) ≤ z.cache := by
        rw [size_perm hpush, size_cons]
        have := size_perm hall
        rw [size_cons] at this
        have := h.cap
        show x.size + _ ≤ _
        omega
      obtain ⟨s', l1, l2⟩ := demote_spec j _ _ hjn j2 hnd2 hcap2
      refine ⟨s', ?_, ⟨l2.arr, hnd2.perm l2.perm, ?_, by rw [size_perm l2.perm]; exact hcap2⟩, l2.base, ⟨x, _, hall, Or.inr ⟨hc, l2.perm.trans hpush⟩⟩⟩
      · have hmt : o.mt > 0 := by omega
        rw [LPSFIFO.evict, if_pos hocc]
        simp only [k1, k2, Res.bind_ok, if_pos hmt]
        rw [hx, hj]
        simp only [j1, Res.bind_ok]
        exact l1
      · apply settle_within
        intro i hi hne
        rw [LazySegments.push, put_other _ hne, put_other _ (by omega)]; exact h.within i hi

/-! ### room for a request -/

/-- what is left to do before the cache is empty: objects, and objects with hits -/
def msr (z : Sizes) (a : LazySegments.Segs) : Nat := (LazySegments.all z a).length + (LazySegments.all z a).countP (fun x => decide (x.cnt ≠ 0))

theorem msr_le (z : Sizes) (a : LazySegments.Segs) : msr z a ≤ 2 * (LazySegments.all z a).length := by
  have := List.countP_le_length (p := fun x : Item => decide (x.cnt ≠ 0)) (l := LazySegments.all z a)
  rw [msr]; omega

theorem Effect.msr {b : LazySegments.Segs} (h : Effect z a b) : msr z b < msr z a := by
  obtain ⟨x, l, h1, h2⟩ := h
  rw [LPSFIFO.msr, LPSFIFO.msr, h1.length_eq, h1.countP_eq]
  rcases h2 with ⟨h3, h4⟩ | ⟨h3, h4⟩
  · rw [h4.length_eq, h4.countP_eq, List.length_cons, List.countP_cons_of_neg (by simp [h3])]; omega
  · rw [h4.length_eq, h4.countP_eq, List.length_cons, List.length_cons, List.countP_cons_of_neg (by simp), List.countP_cons_of_pos (by simp [h3])]; omega

/-- ids and sizes -/
def entries (z : Sizes) (a : LazySegments.Segs) : Contents := (LazySegments.all z a).map Item.entry

theorem Effect.victims {b : LazySegments.Segs} (h : Effect z a b) : ∃ vs : Contents, vs.length ≤ 1 ∧ (entries z a).Perm (vs ++ entries z b) := by
  obtain ⟨x, l, h1, h2⟩ := h
  rcases h2 with ⟨h3, h4⟩ | ⟨h3, h4⟩
  · exact ⟨[x.entry], by simp, (h1.map _).trans ((h4.map _).symm.cons _)⟩
  · exact ⟨[], by simp, (h1.map _).trans ((h4.map Item.entry).symm)⟩

theorem entries_ids (z : Sizes) (a : LazySegments.Segs) : (entries z a).ids = ids (LazySegments.all z a) := by
  simp [entries, ids, Contents.ids, Function.comp_def]

theorem entries_charge (z : Sizes) (a : LazySegments.Segs) : charge 0 (entries z a) = LazySegments.size (LazySegments.all z a) := by
  rw [LazySegments.size, entries, bytes_eq_charge]

/-- the segments above the lowest hold at most their limits, so that the lowest one holds something when room is needed -/
theorem lowest (hz : Fits z) (hw : Within z a) {need : Nat} (hn : need ≤ z.lim 0) (hc : ¬ LazySegments.size (LazySegments.all z a) + need ≤ z.cache) :
    0 < LazySegments.size (a 0) := by
  have hs := hz.sum
  have hp := hz.pos
  rw [LazySegments.all, size_flat] at hc
  obtain ⟨m, hm⟩ : ∃ m, z.n = m + 1 := ⟨z.n - 1, by omega⟩
  rw [hm, List.range_succ_eq_map] at hc hs
  simp only [List.map_cons, List.sum_cons, List.map_map] at hc hs
  have key : ∀ l : List Nat, (l.map ((fun i => LazySegments.size (a i)) ∘ Nat.succ)).sum ≤ (l.map (z.lim ∘ Nat.succ)).sum := by
    intro l
    induction l with
    | nil => exact Nat.le_refl _
    | cons i l ih =>
      have := hw (i + 1) (by omega)
      simp only [List.map_cons, List.sum_cons, Function.comp]
      simp only [Function.comp_def] at ih
      show LazySegments.size (a (i + 1)) + _ ≤ z.lim (i + 1) + _
      exact Nat.add_le_add this ih
  have := key (List.range m)
  omega

theorem Abs.must (h : Abs z a s) (r : Req) : algo.mustEvict s r = true ↔ ¬ LazySegments.size (LazySegments.all z a) + r.size ≤ z.cache := by
  show decide (LPSFIFO.occ s + r.size + s.base.objMd > (s.base.cacheSize : Int)) = true ↔ _
  rw [decide_eq_true_iff, h.arr.occ, h.arr.mdz, h.arr.csz]; push_cast; omega

theorem Abs.loop (hz : Fits z) (r : Req) (hr : r.size ≤ z.lim 0) : ∀ n m (a : LazySegments.Segs) (s : State), Abs z a s → msr z a ≤ n → msr z a ≤ m →
    ∃ s', algo.evictLoop r n s = .ok s' ∧ Abs z (LazySegments.makeRoom z r.size m a) s' ∧ s'.base = s.base ∧
      algo.mustEvict s' r = false ∧ (entries z (LazySegments.makeRoom z r.size m a)).Subperm (entries z a) := by
  intro n
  induction n with
  | zero =>
    intro m a s h hn hm
    have hc : LazySegments.size (LazySegments.all z a) + r.size ≤ z.cache := by
      by_contra hc
      have h1 := lowest hz h.within hr hc
      have h2 : a 0 ≠ [] := by intro e; rw [e] at h1; simp at h1
      have h3 : LazySegments.all z a = [] := List.length_eq_zero_iff.1 (by rw [msr] at hn; omega)
      obtain ⟨x, hx⟩ := List.exists_mem_of_ne_nil _ h2
      have := mem_all.2 ⟨0, hz.pos, hx⟩
      rw [h3] at this; cases this
    have hme : algo.mustEvict s r = false := by
      by_contra hb
      exact (h.must r).1 (by simpa using hb) hc
    have e : LazySegments.makeRoom z r.size m a = a := by
      cases m with
      | zero => rfl
      | succ m => rw [LazySegments.makeRoom, if_pos hc]
    rw [e]
    exact ⟨s, by simp [Algo.evictLoop, hme], h, rfl, hme, List.Subperm.refl _⟩
  | succ n ih =>
    intro m a s h hn hm
    by_cases hc : LazySegments.size (LazySegments.all z a) + r.size ≤ z.cache
    · have hme : algo.mustEvict s r = false := by
        by_contra hb
        exact (h.must r).1 (by simpa using hb) hc
      have e : LazySegments.makeRoom z r.size m a = a := by
        cases m with
        | zero => rfl
        | succ m => rw [LazySegments.makeRoom, if_pos hc]
      rw [e]
      exact ⟨s, by simp [Algo.evictLoop, hme], h, rfl, hme, List.Subperm.refl _⟩
    · have hme := (h.must r).2 hc
      obtain ⟨s1, k1, k2, k3, k4⟩ := h.evict hz (lowest hz h.within hr hc)
      have hlt := k4.msr
      cases m with
      | zero => omega
      | succ m =>
        obtain ⟨s', j1, j2, j3, j4, j5⟩ := ih m _ s1 k2 (by omega) (by omega)
        have e : LazySegments.makeRoom z r.size (m + 1) a = LazySegments.makeRoom z r.size m (LazySegments.evict z a) := by
          rw [LazySegments.makeRoom, if_neg hc]
        rw [e]
        obtain ⟨vs, _, hv⟩ := k4.victims
        refine ⟨s', ?_, j2, j3.trans k3, j4, j5.trans ((List.sublist_append_right vs _).subperm.trans hv.symm.subperm)⟩
        have k1' : algo.evict s r = .ok s1 := k1
        simp only [Algo.evictLoop, hme, if_true, k1', Res.bind_ok, j1]

/-! ### insertion -/

theorem Abs.pick_eq (h : Abs z a s) (r : Req) : pick s r = (List.range z.n).find? (fun k => decide (LazySegments.size (a k) + r.size ≤ z.lim k)) := by
  rw [pick, h.arr.n]
  have key : ∀ l : List Nat, (∀ i ∈ l, i < z.n) → l.find? (fun i => decide ((s.seg i).base.occ + r.size + s.base.objMd ≤ (s.lim i : Int))) =
      l.find? (fun k => decide (LazySegments.size (a k) + r.size ≤ z.lim k)) := by
    intro l
    induction l with
    | nil => intro _; rfl
    | cons i l ih =>
      intro hl
      have e : decide ((s.seg i).base.occ + r.size + s.base.objMd ≤ (s.lim i : Int)) = decide (LazySegments.size (a i) + r.size ≤ z.lim i) := by
        rw [decide_eq_decide, h.arr.seg_occ (hl i (by simp)), h.arr.mdz, h.arr.lim]; push_cast; omega
      rw [List.find?_cons, List.find?_cons, e, ih (fun j hj => hl j (by simp [hj]))]
  exact key _ (fun i hi => List.mem_range.1 hi)

theorem Abs.insert (hz : Fits z) (h : Abs z a s) (r : Req) (hn : r.id ∉ ids (LazySegments.all z a)) (hme : algo.mustEvict s r = false) :
    ∃ s', insert s r = .ok s' ∧ Abs z (LazySegments.insert z a r) s' ∧ s'.base = s.base := by
  have hfit : LazySegments.size (LazySegments.all z a) + r.size ≤ z.cache := by
    by_contra hc; rw [(h.must r).2 hc] at hme; cases hme
  have hle : r.size % u32 ≤ r.size := Nat.mod_le _ _
  have goAt : ∀ k, k < z.n → (k ≠ 0 → LazySegments.size (a k) + r.size ≤ z.lim k) →
      ∃ s', insertAt s r k = .ok s' ∧ Abs z (LazySegments.push a k ⟨r.id, r.size % u32, 0⟩) s' ∧ s'.base = s.base := by
    intro k hk hroom
    obtain ⟨q, k1, k2⟩ := h.arr.push hk r 0 (fun hm => hn (mem_ids.2 ⟨k, hk, hm⟩))
    have hp := all_push (a := a) hk (⟨r.id, r.size % u32, 0⟩ : Item)
    refine ⟨{ s with seg := upd s.seg k q }, by simp [insertAt, k1], ⟨k2, ?_, ?_, ?_⟩, rfl⟩
    · refine (hp.map Item.id).nodup_iff.2 ?_
      rw [List.map_cons, List.nodup_cons]; exact ⟨hn, h.nd⟩
    · intro i hi
      by_cases e : i = k
      · subst e
        rw [LazySegments.push, put_same, size_cons]
        have := hroom (by omega)
        show r.size % u32 + _ ≤ _
        omega
      · rw [LazySegments.push, put_other _ e]; exact h.within i hi
    · rw [size_perm hp, size_cons]
      show r.size % u32 + _ ≤ _
      omega
  rw [LPSFIFO.insert, h.pick_eq r, LazySegments.insert, LazySegments.target]
  cases hf : (List.range z.n).find? (fun k => decide (LazySegments.size (a k) + r.size ≤ z.lim k)) with
  | some k =>
    have h1 := List.find?_some hf
    have h2 := List.mem_range.1 (List.mem_of_find?_eq_some hf)
    exact goAt k h2 (fun _ => by simpa using h1)
  | none =>
    have hl : insertLoop r (2 * LPSFIFO.count s + 1) s = .ok s := by
      rw [insertLoop]
      rw [if_neg]
      rw [h.arr.occz, h.arr.mdz, h.arr.csz]; push_cast; omega
    simp only [hl, Res.bind_ok]
    exact goAt 0 hz.pos (fun h => absurd rfl h)

/-! ### hits -/

theorem Arr.locate_none (h : Arr z a s) {id : ObjId} (hn : id ∉ ids (LazySegments.all z a)) : locate s id = none := by
  rw [locate, List.find?_eq_none]
  intro i hi
  have hi' : i < z.n := by rw [← h.n]; exact List.mem_range.1 hi
  obtain ⟨l, h1, h2⟩ := h.rep i hi'
  rw [h1.lookup_isSome, ← ids_items, h2]
  simp only [decide_eq_true_eq]
  exact fun hm => hn (mem_ids.2 ⟨i, hi', hm⟩)

/-- an object is in one segment -/
theorem one_seg (hn : Nd z a) {id : ObjId} {i j : Nat} (hi : i < z.n) (hj : j < z.n) (h1 : id ∈ ids (a i)) (h2 : id ∈ ids (a j)) : i = j := by
  by_contra hne
  have h3 := ((all_split (a := a) hi).map Item.id).nodup_iff.1 hn
  rw [List.map_append, List.nodup_append] at h3
  refine h3.2.2 id h1 id ?_ rfl
  obtain ⟨x, hx, rfl⟩ := List.mem_map.1 h2
  refine List.mem_map.2 ⟨x, List.mem_flatMap.2 ⟨j, ?_, hx⟩, rfl⟩
  exact (List.mem_erase_of_ne (fun e => hne e.symm)).2 (List.mem_range.2 hj)

theorem Arr.locate_some (h : Arr z a s) (hn : Nd z a) {id : ObjId} (hm : id ∈ ids (LazySegments.all z a)) :
    ∃ i, i < z.n ∧ locate s id = some i ∧ id ∈ ids (a i) := by
  obtain ⟨k, hk, hx⟩ := mem_ids.1 hm
  have key : ∀ i, i < z.n → (((s.seg i).base.lookup id).isSome = true ↔ id ∈ ids (a i)) := by
    intro i hi
    obtain ⟨l, h1, h2⟩ := h.rep i hi
    rw [h1.lookup_isSome, ← ids_items, h2, decide_eq_true_iff]
  cases hf : locate s id with
  | none =>
    rw [locate, List.find?_eq_none] at hf
    exact absurd ((key k hk).2 hx) (hf k (List.mem_range.2 (by rw [h.n]; exact hk)))
  | some i =>
    have h1 := List.find?_some hf
    have h2 : i < z.n := by rw [← h.n]; exact List.mem_range.1 (List.mem_of_find?_eq_some hf)
    exact ⟨i, h2, rfl, (key i h2).1 h1⟩

/-- the mark a hit leaves in segment `k` -/
def tick (k : Nat) (id : ObjId) (x : Item) : Item := if x.id = id then { x with cnt := counted k x.cnt } else x

theorem hit_eq (a : LazySegments.Segs) (r : Req) : LazySegments.hit a r = fun k => (a k).map (tick k r.id) := rfl

theorem tick_entry (k : Nat) (id : ObjId) (x : Item) : (tick k id x).entry = x.entry := by rw [tick]; split <;> rfl

theorem tick_miss {k : Nat} {id : ObjId} {l : List Item} (h : id ∉ ids l) : l.map (tick k id) = l := by
  conv => rhs; rw [← List.map_id l]
  apply List.map_congr_left
  intro x hx
  rw [tick, if_neg]; rfl
  exact fun e => h (List.mem_map.2 ⟨x, hx, e⟩)

theorem hit_seg (a : LazySegments.Segs) (r : Req) (k : Nat) : (LazySegments.hit a r k).map Item.entry = (a k).map Item.entry := by
  rw [hit_eq]
  show ((a k).map (tick k r.id)).map Item.entry = _
  rw [List.map_map]
  exact List.map_congr_left (fun x _ => tick_entry k r.id x)

theorem hit_entries (z : Sizes) (a : LazySegments.Segs) (r : Req) : entries z (LazySegments.hit a r) = entries z a := by
  rw [entries, entries, LazySegments.all, LazySegments.all, List.map_flatMap, List.map_flatMap]
  exact List.flatMap_congr (fun k _ => hit_seg a r k)

theorem Abs.find (h : Abs z a s) (r : Req) (u : Bool) :
    ∃ s', find s r u = .ok (decide (r.id ∈ ids (LazySegments.all z a)), s') ∧
      Abs z (if r.id ∈ ids (LazySegments.all z a) then LazySegments.hit a r else a) s' ∧ s'.base = s.base ∧ (r.id ∉ ids (LazySegments.all z a) → s' = s) := by
  by_cases hm : r.id ∈ ids (LazySegments.all z a)
  · obtain ⟨i, hi, h1, h2⟩ := h.arr.locate_some h.nd hm
    obtain ⟨l, h3, h4⟩ := h.arr.rep i hi
    have h5 := h3.modify r.id (fun o => { o with mt := counted i o.mt }) (fun _ => rfl) (fun _ => rfl)
    have h6 := h.arr.put hi h5
    have e1 : (modL r.id (fun o => { o with mt := counted i o.mt }) l).map item = (a i).map (tick i r.id) := by
      rw [← h4, modL, List.map_map, List.map_map]
      apply List.map_congr_left
      intro o _
      by_cases e : o.id = r.id
      · have e' : (item o).id = r.id := e
        simp only [Function.comp, tick, if_pos e, if_pos e']; rfl
      · have e' : ¬ (item o).id = r.id := e
        simp only [Function.comp, tick, if_neg e, if_neg e']
    have e2 : LazySegments.put a i ((a i).map (tick i r.id)) = LazySegments.hit a r := by
      rw [hit_eq]
      funext j
      by_cases e : j = i
      · rw [e, put_same]
      · rw [put_other _ e]
        by_cases hj : j < z.n
        · exact (tick_miss (fun hx => e (one_seg h.nd hj hi hx h2))).symm
        · rw [h.arr.out j (by omega)]; rfl
    rw [e1, e2] at h6
    rw [if_pos hm, decide_eq_true hm]
    refine ⟨_, by rw [LPSFIFO.find, h1], ⟨h6, ?_, ?_, ?_⟩, rfl, fun hc => absurd hm hc⟩
    · rw [Nd, ← entries_ids, hit_entries, entries_ids]; exact h.nd
    · intro k hk
      rw [LazySegments.size, hit_seg]; exact h.within k hk
    · rw [← entries_charge, hit_entries, entries_charge]; exact h.cap
  · rw [if_neg hm, decide_eq_false hm]
    exact ⟨s, by rw [LPSFIFO.find, h.arr.locate_none hm], h, rfl, fun _ => rfl⟩

/-! ### removal -/

theorem removeFrom_spec (h : Arr z a s) (id : ObjId) : ∀ m i, i + m ≤ z.n →
    (∃ k l q, i ≤ k ∧ k < i + m ∧ id ∈ ids (a k) ∧ Rep (z.lim k) 0 (s.seg k) l ∧ l.map item = a k ∧ Rep (z.lim k) 0 q (delL id l) ∧
      removeFrom s id i m = .ok (true, { s with seg := upd s.seg k q })) ∨
    ((∀ k, i ≤ k → k < i + m → id ∉ ids (a k)) ∧ removeFrom s id i m = .ok (false, s)) := by
  intro m
  induction m with
  | zero => intro i _; exact Or.inr ⟨fun k h1 h2 => by omega, rfl⟩
  | succ m ih =>
    intro i hi
    obtain ⟨l, h1, h2⟩ := h.rep i (by omega)
    by_cases hm : id ∈ ids (a i)
    · have hm' : id ∈ l.map (·.id) := by rw [← ids_items, h2]; exact hm
      obtain ⟨q, h3, h4⟩ := h1.remove_hit hm'
      exact Or.inl ⟨i, l, q, Nat.le_refl _, by omega, hm, h1, h2, h4, by simp [removeFrom, h3]⟩
    · have hm' : id ∉ l.map (·.id) := by rw [← ids_items, h2]; exact hm
      have h3 := h1.remove_miss hm'
      rcases ih (i + 1) (by omega) with ⟨k, l', q, k1, k2, k3, k4, k5, k6, k7⟩ | ⟨k1, k2⟩
      · exact Or.inl ⟨k, l', q, by omega, by omega, k3, k4, k5, k6, by simp [removeFrom, h3, k7]⟩
      · refine Or.inr ⟨?_, by simp [removeFrom, h3, k2]⟩
        intro k j1 j2
        by_cases e : k = i
        · rw [e]; exact hm
        · exact k1 k (by omega) (by omega)

theorem filter_miss {id : ObjId} {l : List Item} (h : id ∉ ids l) : l.filter (fun x => x.id ≠ id) = l := by
  rw [List.filter_eq_self]
  intro x hx
  simp only [ne_eq, decide_not, Bool.not_eq_true', decide_eq_false_iff_not]
  exact fun e => h (List.mem_map.2 ⟨x, hx, e⟩)

theorem all_remove (z : Sizes) (a : LazySegments.Segs) (id : ObjId) :
    LazySegments.all z (LazySegments.remove a id) = (LazySegments.all z a).filter (fun x => x.id ≠ id) := by
  rw [LazySegments.all, LazySegments.all, List.filter_flatMap]; rfl

theorem size_sublist {l l' : List Item} (h : l.Sublist l') : LazySegments.size l ≤ LazySegments.size l' := by
  induction h with
  | slnil => exact Nat.le_refl _
  | cons x _ ih => rw [size_cons]; omega
  | cons_cons x _ ih => rw [size_cons, size_cons]; omega

theorem Abs.remove (h : Abs z a s) (id : ObjId) :
    ∃ s', remove s id = .ok (decide (id ∈ ids (LazySegments.all z a)), s') ∧ Abs z (LazySegments.remove a id) s' ∧ s'.base = s.base := by
  have habs : ∀ s', Arr z (LazySegments.remove a id) s' → Abs z (LazySegments.remove a id) s' := by
    intro s' hs
    refine ⟨hs, ?_, ?_, ?_⟩
    · rw [Nd, all_remove]; exact h.nd.sublist (List.filter_sublist.map _)
    · intro k hk; exact Nat.le_trans (size_sublist List.filter_sublist) (h.within k hk)
    · rw [all_remove]; exact Nat.le_trans (size_sublist List.filter_sublist) h.cap
  rcases removeFrom_spec h.arr id z.n 0 (by omega) with ⟨k, l, q, k1, k2, k3, k4, k5, k6, k7⟩ | ⟨k1, k2⟩
  · have hk : k < z.n := by omega
    have hm : id ∈ ids (LazySegments.all z a) := mem_ids.2 ⟨k, hk, k3⟩
    have h6 := h.arr.put hk k6
    have e1 : (delL id l).map item = (a k).filter (fun x => x.id ≠ id) := by
      rw [← k5, delL, List.filter_map]; rfl
    have e2 : LazySegments.put a k ((a k).filter (fun x => x.id ≠ id)) = LazySegments.remove a id := by
      funext j
      by_cases e : j = k
      · rw [e, put_same]; rfl
      · rw [put_other _ e]
        by_cases hj : j < z.n
        · exact (filter_miss (fun hx => e (one_seg h.nd hj hk hx k3))).symm
        · show _ = (a j).filter _
          rw [h.arr.out j (by omega)]; rfl
    rw [e1, e2] at h6
    rw [decide_eq_true hm]
    have k8 : LPSFIFO.remove s id = removeFrom s id 0 z.n := by rw [LPSFIFO.remove, h.arr.n]
    exact ⟨_, k8.trans k7, habs _ h6, rfl⟩
  · have hm : id ∉ ids (LazySegments.all z a) := by
      intro hm
      obtain ⟨k, hk, hx⟩ := mem_ids.1 hm
      exact k1 k (by omega) (by omega) hx
    have e : LazySegments.remove a id = a := by
      funext j
      by_cases hj : j < z.n
      · exact filter_miss (k1 j (by omega) (by omega))
      · show (a j).filter _ = _
        rw [h.arr.out j (by omega)]; rfl
    rw [decide_eq_false hm]
    refine ⟨s, by rw [LPSFIFO.remove, h.arr.n]; exact k2, ?_, rfl⟩
    rw [e]; exact h

/-! ### requests -/

theorem Abs.frame (h : Abs z a s) (n : Nat) (ad : Adm) : Abs z a { s with base := { s.base with nReq := n, adm := ad } } :=
  ⟨⟨h.arr.n, h.arr.lim, h.arr.csz, h.arr.mdz, h.arr.occz, h.arr.rep, h.arr.out⟩, h.nd, h.within, h.cap⟩

theorem Abs.bump (h : Abs z a s) : Abs z a (algo.bump s) := h.frame (s.base.nReq + 1) s.base.adm

theorem lim_le (hz : Fits z) : z.lim 0 ≤ z.cache := by
  refine Nat.le_trans ?_ hz.sum
  obtain ⟨m, hm⟩ : ∃ m, z.n = m + 1 := ⟨z.n - 1, by have := hz.pos; omega⟩
  rw [hm, List.range_succ_eq_map]; simp

theorem Abs.can (hz : Fits z) (h : Abs z a s) (r : Req) :
    canInsert s r = ((s.base.adm.admit r).1 && decide (r.size ≤ z.lim 0), { s with base := { s.base with adm := (s.base.adm.admit r).2 } }) := by
  obtain ⟨l, h1, h2⟩ := h.arr.rep 0 hz.pos
  have hl := lim_le hz
  rw [canInsert, canInsertDefault_eq]
  refine Prod.ext ?_ rfl
  show ((s.base.adm.admit r).1 && decide (r.size + s.base.objMd ≤ s.base.cacheSize) && decide (r.size + s.base.objMd ≤ (s.seg 0).base.cacheSize)) = _
  rw [h1.csz, h.arr.mdz, h.arr.csz]
  cases (s.base.adm.admit r).1
  · rfl
  · rw [Bool.true_and, Bool.true_and, ← Bool.decide_and, decide_eq_decide]; omega

theorem Abs.fuel (h : Abs z a s) : msr z a ≤ algo.fuel s := by
  show _ ≤ 2 * LPSFIFO.count s
  rw [h.arr.count]; exact msr_le z a

theorem notMem_subperm {b : LazySegments.Segs} {id : ObjId} (hs : (entries z b).Subperm (entries z a)) (h : id ∉ ids (LazySegments.all z a)) : id ∉ ids (LazySegments.all z b) := by
  rw [← entries_ids] at h ⊢
  exact notMem_ids_of_subperm hs h

theorem Abs.get (hz : Fits z) (h : Abs z a s) (r : Req) :
    ∃ s', algo.get s r = .ok ((LazySegments.get z (a, s.base.adm) r).1, s') ∧ Abs z (LazySegments.get z (a, s.base.adm) r).2.1 s' ∧
      s'.base.adm = (LazySegments.get z (a, s.base.adm) r).2.2 := by
  have h0 := h.bump
  obtain ⟨s1, k1, k2, k3, k4⟩ := h0.find r true
  by_cases hin : r.id ∈ ids (LazySegments.all z a)
  · rw [decide_eq_true hin] at k1
    rw [if_pos hin] at k2
    have e : LazySegments.get z (a, s.base.adm) r = (true, (LazySegments.hit a r, s.base.adm)) := by
      rw [LazySegments.get]; exact if_pos hin
    rw [e]
    exact ⟨s1, get_hit k1, k2, by rw [k3]; rfl⟩
  · rw [decide_eq_false hin] at k1
    have hs := k4 hin
    subst hs
    let s2 : State := { algo.bump s with base := { (algo.bump s).base with adm := (s.base.adm.admit r).2 } }
    have h2 : Abs z a s2 := h0.frame (algo.bump s).base.nReq _
    have hcan := h0.can hz r
    by_cases hc : (s.base.adm.admit r).1 = true ∧ r.size ≤ z.lim 0
    · have hcan' : algo.canInsert (algo.bump s) r = (true, s2) := by
        refine Eq.trans hcan (Prod.ext ?_ rfl)
        show ((s.base.adm.admit r).1 && decide (r.size ≤ z.lim 0)) = true
        rw [hc.1, decide_eq_true hc.2]; rfl
      obtain ⟨s3, j1, j2, j3, j4, j5⟩ := Abs.loop hz r hc.2 (algo.fuel s2) (2 * (LazySegments.all z a).length) a s2 h2 h2.fuel (msr_le z a)
      obtain ⟨s4, l1, l2, l3⟩ := j2.insert hz r (notMem_subperm j5 hin) j4
      have e : LazySegments.get z (a, s.base.adm) r = (false, (LazySegments.insert z (LazySegments.makeRoom z r.size (2 * (LazySegments.all z a).length) a) r, (s.base.adm.admit r).2)) := by
        rw [LazySegments.get]; exact (if_neg hin).trans (if_pos hc)
      rw [e]
      exact ⟨s4, get_accept k1 hcan' j1 l1, l2, by rw [l3, j3]⟩
    · have hcan' : algo.canInsert (algo.bump s) r = (false, s2) := by
        refine Eq.trans hcan (Prod.ext ?_ rfl)
        show ((s.base.adm.admit r).1 && decide (r.size ≤ z.lim 0)) = false
        by_contra hne
        rw [Bool.not_eq_false, Bool.and_eq_true, decide_eq_true_iff] at hne
        exact hc hne
      have e : LazySegments.get z (a, s.base.adm) r = (false, (a, (s.base.adm.admit r).2)) := by
        rw [LazySegments.get]; exact (if_neg hin).trans (if_neg hc)
      rw [e]
      exact ⟨s2, get_reject k1 hcan', h2, rfl⟩

theorem Abs.gets (hz : Fits z) : ∀ (rs : List Req) (t : LazySegments.Segs × Adm) (s : State), Abs z t.1 s → s.base.adm = t.2 →
    ∃ s', algo.gets s rs = .ok ((LazySegments.gets z t rs).1, s') ∧ Abs z (LazySegments.gets z t rs).2.1 s' := by
  intro rs
  induction rs with
  | nil => intro t s h _; exact ⟨s, rfl, h⟩
  | cons r rs ih =>
    intro t s h he
    obtain ⟨s1, k1, k2, k3⟩ := h.get hz r
    have et : (t.1, s.base.adm) = t := by rw [he]
    rw [et] at k1 k2 k3
    obtain ⟨s', j1, j2⟩ := ih _ s1 k2 k3
    refine ⟨s', ?_, j2⟩
    simp only [Algo.gets, k1, Res.bind_ok, j1]
    rfl

theorem abs_init (z : Sizes) (adm : Adm) : Abs z (fun _ => []) (init z.cache adm z.n z.lim) := by
  have e : LazySegments.all z (fun _ => []) = [] := by simp [LazySegments.all]
  refine ⟨⟨rfl, rfl, rfl, rfl, rfl, fun k _ => ⟨[], Rep.init _ _ _, rfl⟩, fun _ _ => rfl⟩, ?_, fun _ _ => Nat.zero_le _, ?_⟩
  · rw [Nd, e]; exact List.nodup_nil
  · rw [e]; exact Nat.zero_le _

/-! ### calls -/

/-- the segments of a state -/
def segs (s : State) : LazySegments.Segs := fun k => if k < s.n then (s.seg k).objs.map item else []

/-- the cached objects -/
def cached (s : State) : Contents := (List.range s.n).flatMap (fun k => cont (s.seg k).objs)

theorem Arr.segs (h : Arr z a s) : segs s = a := by
  funext k
  rw [LPSFIFO.segs, h.n]
  split
  · next hk =>
    obtain ⟨l, h1, h2⟩ := h.rep k hk
    rw [h1.objs, h2]
  · next hk => exact (h.out k (by omega)).symm

theorem Arr.cached (h : Arr z a s) : cached s = entries z a := by
  rw [LPSFIFO.cached, h.n, entries, LazySegments.all, List.map_flatMap]
  apply List.flatMap_congr
  intro k hk
  obtain ⟨l, h1, h2⟩ := h.rep k (List.mem_range.1 hk)
  rw [h1.objs, ← h2, List.map_map]; rfl

def Inv (z : Sizes) (s : State) : Prop := Abs z (segs s) s

theorem Abs.inv (h : Abs z a s) : Inv z s := by rw [Inv, h.arr.segs]; exact h

theorem inv_init (z : Sizes) (adm : Adm) : Inv z (init z.cache adm z.n z.lim) := (abs_init z adm).inv

theorem Inv.cached (h : Inv z s) : cached s = entries z (LPSFIFO.segs s) := h.arr.cached

theorem Inv.mem (h : Inv z s) (id : ObjId) : id ∈ (LPSFIFO.cached s).ids ↔ id ∈ ids (LazySegments.all z (LPSFIFO.segs s)) := by
  rw [h.cached, entries_ids]

/-- the same cache with a correct `get_n_obj` -/
def algo' : Algo State := { algo with nObj := fun s => count s }

/-- what makes room for a request -/
def Ready (z : Sizes) (_ : State) (r : Req) : Prop := r.size ≤ z.lim 0

theorem insert_entries {k : Nat} (hk : k < z.n) (r : Req) : (entries z (LazySegments.push a k ⟨r.id, r.size % u32, 0⟩)).Perm ((r.id, r.size % u32) :: entries z a) :=
  (all_push hk _).map Item.entry

theorem target_lt (hz : Fits z) (a : LazySegments.Segs) (n : Nat) : LazySegments.target z a n < z.n := by
  rw [LazySegments.target]
  cases hf : (List.range z.n).find? (fun k => decide (LazySegments.size (a k) + n ≤ z.lim k)) with
  | none => exact hz.pos
  | some k => exact List.mem_range.1 (List.mem_of_find?_eq_some hf)

theorem contract (hz : Fits z) : Medium algo' cached (Inv z) (Ready z) (fun s => msr z (segs s)) z.cache 0 { peek := false, ev := false, ins := false } (fun _ => True) where
  csz := by intro s h; exact h.arr.csz
  mdz := by intro s h; exact h.arr.mdz
  nodup := by intro s h; rw [h.cached, entries_ids]; exact h.nd
  occ := by intro s h; rw [h.cached, entries_charge]; exact h.arr.occ
  nObj := by
    intro s h
    rw [h.cached, entries, List.length_map]
    show ((LPSFIFO.count s : Nat) : Int) = _
    exact_mod_cast h.arr.count
  cap := by
    intro s h
    show LPSFIFO.occ s ≤ _
    rw [h.arr.occ]; exact_mod_cast h.cap
  bump := by intro s h; exact ⟨Abs.bump h |>.inv, rfl⟩
  findF := by intro h; rcases h with h | h <;> cases h
  findHit := by
    intro s r h hin _
    obtain ⟨s', k1, k2, k3, k4⟩ := Abs.find h r true
    have hm := (h.mem _).1 hin
    rw [decide_eq_true hm] at k1
    rw [if_pos hm] at k2
    refine ⟨s', k1, k2.inv, ?_⟩
    rw [k2.arr.cached, h.cached, hit_entries]
  findMiss := by
    intro s r h hin _
    obtain ⟨s', k1, k2, k3, k4⟩ := Abs.find h r true
    have hm : r.id ∉ ids (LazySegments.all z (segs s)) := fun hm => hin ((h.mem _).2 hm)
    rw [decide_eq_false hm] at k1
    have hs := k4 hm
    subst hs
    have hcan : algo'.canInsert s' r = _ := Abs.can hz h r
    refine ⟨s', k1, h, List.Perm.refl _, ?_, ?_, ?_⟩
    · rw [hcan]; exact (Abs.frame h s'.base.nReq _).inv
    · rw [hcan]; exact List.Perm.refl _
    · rw [hcan]
      intro hc _
      rw [Bool.and_eq_true, decide_eq_true_iff] at hc
      exact hc.2
  fuel := by intro s h; exact Abs.fuel h
  evictLoop := by
    intro s r h _ hrd _ hme
    obtain ⟨s1, k1, k2, k3, k4⟩ := Abs.evict hz h (lowest hz h.within hrd ((Abs.must h r).1 hme))
    refine ⟨s1, k1, k2.inv, hrd, ?_, ?_⟩
    · obtain ⟨vs, _, hv⟩ := k4.victims
      rw [k2.arr.cached, h.cached]
      exact (List.sublist_append_right vs _).subperm.trans hv.symm.subperm
    · have := k4.msr
      rw [k2.arr.segs]; exact this
  insert := by
    intro s r h _ hrd hin hme
    obtain ⟨s', k1, k2, k3⟩ := Abs.insert hz h r (fun hm => hin ((h.mem _).2 hm)) hme
    refine ⟨s', k1, k2.inv, ?_⟩
    rw [k2.arr.cached, h.cached]
    exact (insert_entries (target_lt hz _ _) r).subperm
  userInsert := by intro h; cases h
  remove := by
    intro _ s id h
    obtain ⟨s', k1, k2, k3⟩ := Abs.remove h id
    refine ⟨_, s', k1, k2.inv, ?_⟩
    rw [k2.arr.cached, h.cached, entries, entries, all_remove]
    exact (List.filter_sublist.map _).subperm
  evict := by intro h; cases h
  evictAtMostOne := by
    intro s s' r h _ hrd _ hme he
    obtain ⟨s1, k1, k2, k3, k4⟩ := Abs.evict hz h (lowest hz h.within hrd ((Abs.must h r).1 hme))
    have e : s1 = s' := Except.ok.inj (k1.symm.trans he)
    subst e
    rw [k2.arr.cached, h.cached]; exact k4.victims
  hitPerm := by
    intro s s' r h he
    obtain ⟨s1, k1, k2, k3, k4⟩ := Abs.find h r true
    have e := Except.ok.inj (k1.symm.trans he)
    have e1 : s1 = s' := congrArg Prod.snd e
    have e2 : r.id ∈ ids (LazySegments.all z (segs s)) := of_decide_eq_true (congrArg Prod.fst e)
    subst e1
    rw [if_pos e2] at k2
    rw [k2.arr.cached, h.cached, hit_entries]

theorem loop_eq (r : Req) : ∀ n s, algo'.evictLoop r n s = algo.evictLoop r n s := by
  intro n
  induction n with
  | zero => intro s; rfl
  | succ n ih =>
    intro s
    have : (fun s' => algo'.evictLoop r n s') = (fun s' => algo.evictLoop r n s') := funext ih
    rw [Algo.evictLoop, Algo.evictLoop, this]; rfl

theorem get_eq (s : State) (r : Req) : algo'.get s r = algo.get s r := by
  rw [Algo.get, Algo.get]
  simp only [loop_eq]; rfl

theorem step_eq (s : State) (op : Op) (h : ∀ r, op ≠ .evict r) : algo'.step s op = algo.step s op := by
  cases op with
  | get r => exact get_eq s r
  | find r u => rfl
  | remove id => rfl
  | evict r => exact absurd rfl (h r)
  | insert r => rfl

theorem run_eq : ∀ (ops : List Op) (s : State), (∀ op ∈ ops, ∀ r, op ≠ .evict r) → algo'.run s ops = algo.run s ops := by
  intro ops
  induction ops with
  | nil => intro s _; rfl
  | cons op ops ih =>
    intro s h
    have : ∀ s', algo'.run s' ops = algo.run s' ops := fun s' => ih s' (fun o ho => h o (by simp [ho]))
    rw [Algo.run, Algo.run, step_eq s op (h op (by simp))]
    simp only [this]

/-- The calls considered: `get`, `find` with update and `remove`. -/
abbrev perms : Perms := { peek := false, ev := false, ins := false }

abbrev calls : Op → Prop := Calls perms (fun _ => True)

theorem calls_ne {op : Op} (h : calls op) : ∀ r, op ≠ .evict r := by rintro r rfl; cases h

theorem reaches_iff {ops : List Op} {out : List Bool} {s0 s : State} (h : ∀ op ∈ ops, calls op) : Reaches algo s0 ops out s ↔ Reaches algo' s0 ops out s := by
  rw [Reaches, Reaches, run_eq ops s0 (fun op ho => calls_ne (h op ho))]

theorem reach (hz : Fits z) {ops : List Op} {out : List Bool} {adm : Adm} (h : ∀ op ∈ ops, calls op) (hr : Reaches algo (init z.cache adm z.n z.lim) ops out s) : Inv z s :=
  (contract hz).toContract.reach (inv_init z adm) h ((reaches_iff h).1 hr)

/-! ### all calls but `evict` -/

theorem Inv.step (hz : Fits z) (h : Inv z s) (op : Op) (hop : ∀ r, op ≠ .evict r) : ∃ b s', algo.step s op = .ok (b, s') ∧ Inv z s' := by
  cases op with
  | get r =>
    obtain ⟨s', k1, k2, _⟩ := Abs.get hz h r
    exact ⟨_, s', k1, k2.inv⟩
  | find r u =>
    obtain ⟨s', k1, k2, _⟩ := Abs.find h r u
    exact ⟨_, s', k1, k2.inv⟩
  | remove id =>
    obtain ⟨s', k1, k2, _⟩ := Abs.remove h id
    exact ⟨_, s', k1, k2.inv⟩
  | evict r => exact absurd rfl (hop r)
  | insert r =>
    obtain ⟨s1, k1, k2, k3, k4⟩ := Abs.find h r false
    have k1' : algo.find s r false = _ := k1
    by_cases hm : r.id ∈ ids (LazySegments.all z (LPSFIFO.segs s))
    · rw [decide_eq_true hm] at k1'
      exact ⟨false, s1, by simp [Algo.step, k1'], k2.inv⟩
    · rw [decide_eq_false hm] at k1'
      have e := k4 hm
      subst e
      cases hme : algo.mustEvict s1 r with
      | true => exact ⟨false, s1, by simp [Algo.step, k1', hme], h⟩
      | false =>
        obtain ⟨s', j1, j2, _⟩ := Abs.insert hz h r hm hme
        have j1' : algo.insert s1 r = .ok s' := j1
        exact ⟨true, s', by simp [Algo.step, k1', hme, j1'], j2.inv⟩

theorem Inv.run (hz : Fits z) : ∀ (ops : List Op) (s : State), Inv z s → (∀ op ∈ ops, ∀ r, op ≠ .evict r) → ∃ out s', Reaches algo s ops out s' ∧ Inv z s' := by
  intro ops
  induction ops with
  | nil => intro s h _; exact ⟨[], s, rfl, h⟩
  | cons op ops ih =>
    intro s h ho
    obtain ⟨b, s1, k1, k2⟩ := Inv.step hz h op (ho op (by simp))
    obtain ⟨out, s', j1, j2⟩ := ih s1 k2 (fun o h => ho o (by simp [h]))
    refine ⟨b :: out, s', ?_, j2⟩
    rw [Reaches] at j1
    simp only [Reaches, Algo.run, k1, Res.bind_ok, j1]

theorem anyReach (hz : Fits z) {ops : List Op} {out : List Bool} {adm : Adm} (h : ∀ op ∈ ops, ∀ r, op ≠ .evict r)
    (hr : Reaches algo (init z.cache adm z.n z.lim) ops out s) : Inv z s := by
  obtain ⟨out', s', k1, k2⟩ := Inv.run hz ops _ (inv_init z adm) h
  rw [Reaches] at k1 hr
  have e := Except.ok.inj (k1.symm.trans hr)
  have : s' = s := congrArg Prod.snd e
  subst this
  exact k2

theorem init_cached (cs n : Nat) (lim : Nat → Nat) (adm : Adm) : cached (init cs adm n lim) = [] := by
  rw [cached, List.flatMap_eq_nil_iff]
  intro k _; rfl

/-- the next victim, when the lowest segment holds bytes -/
theorem Abs.toEvict (hz : Fits z) (h : Abs z a s) (hp : 0 < LazySegments.size (a 0)) : toEvict s = (a 0).getLast?.map Item.id := by
  have hf : (List.range s.n).find? (fun i => decide ((s.seg i).base.occ > 0)) = some 0 := by
    obtain ⟨m, hm⟩ : ∃ m, z.n = m + 1 := ⟨z.n - 1, by have := hz.pos; omega⟩
    rw [h.arr.n, hm, List.range_succ_eq_map, List.find?_cons_of_pos]
    rw [decide_eq_true_iff, h.arr.seg_occ hz.pos]; exact_mod_cast hp
  rw [LPSFIFO.toEvict, hf]
  show (s.seg 0).q.getLast? = _
  rw [h.arr.seg_q hz.pos, ids, List.getLast?_map]

end
end Verif.LPSFIFO
