import Verif.Spec.DList
import Mathlib.Data.List.Nodup
/-!
# The pointer code implements the list operations
-/

namespace Verif.DList
open Verif Spec

/-- Recursive form of `Linked`: `q` is linked, preceded by `p` and followed by `n`. -/
def Seg (h : Heap) : Ptr → List Addr → Ptr → Prop
  | _, [], _ => True
  | p, x :: q, n => h x = some ⟨p, q.head?.or n⟩ ∧ Seg h (some x) q n

theorem seg_congr {h h' : Heap} {p n : Ptr} {q : List Addr} (e : ∀ x ∈ q, h' x = h x) :
    Seg h p q n → Seg h' p q n := by
  induction q generalizing p with
  | nil => exact id
  | cons x q ih =>
    rintro ⟨h1, h2⟩
    exact ⟨by rw [e x (by simp)]; exact h1, ih (fun y hy => e y (by simp [hy])) h2⟩

theorem seg_append {h : Heap} {p n : Ptr} {a b : List Addr} :
    Seg h p (a ++ b) n ↔ Seg h p a (b.head?.or n) ∧ Seg h (a.getLast?.or p) b n := by
  induction a generalizing p with
  | nil => simp [Seg]
  | cons x a ih =>
    have e1 : (a ++ b).head?.or n = a.head?.or (b.head?.or n) := by
      cases a <;> simp
    have e2 : (x :: a).getLast?.or p = a.getLast?.or (some x) := by
      cases a with
      | nil => simp
      | cons y a => simp [List.getLast?_eq_some_getLast]
    simp only [List.cons_append, Seg, ih, e1, e2, and_assoc]

theorem linked_of_seg {h : Heap} {q : List Addr} (hs : Seg h none q none) : Linked h q := by
  rintro a x b rfl
  have := (seg_append.1 hs).2
  simpa [Seg] using this.1

theorem seg_of_linked_aux {h : Heap} {q a : List Addr} (hl : ∀ c x b, q = c ++ x :: b → h x = some ⟨(a ++ c).getLast?, b.head?⟩) :
    Seg h a.getLast? q none := by
  induction q generalizing a with
  | nil => trivial
  | cons x q ih =>
    refine ⟨by simpa using hl [] x q rfl, ?_⟩
    have := ih (a := a ++ [x]) (fun c y b e => by
      have := hl (x :: c) y b (by rw [e]; rfl)
      simpa using this)
    simpa using this

theorem seg_of_linked {h : Heap} {q : List Addr} (hl : Linked h q) : Seg h none q none :=
  seg_of_linked_aux (a := []) hl

theorem seg_setLast {h : Heap} {p n m : Ptr} {a : List Addr} {x : Addr} (hn : (a ++ [x]).Nodup)
    (hs : Seg h p (a ++ [x]) n) : Seg (put h x ⟨a.getLast?.or p, m⟩) p (a ++ [x]) m := by
  rw [seg_append] at hs ⊢
  rw [List.nodup_append] at hn
  refine ⟨seg_congr (fun y hy => ?_) hs.1, by simp [Seg, put]⟩
  have : y ≠ x := hn.2.2 y hy x (by simp)
  simp [put, this]

theorem seg_setFirst {h : Heap} {p m n : Ptr} {b : List Addr} {x : Addr} (hn : (x :: b).Nodup)
    (hs : Seg h p (x :: b) n) : Seg (put h x ⟨m, b.head?.or n⟩) m (x :: b) n := by
  refine ⟨by simp [put], seg_congr (fun y hy => ?_) hs.2⟩
  have : y ≠ x := by rintro rfl; exact (List.nodup_cons.1 hn).1 hy
  simp [put, this]

@[simp] theorem put_self (h : Heap) (x : Addr) (c : Cell) : put h x c x = some c := by simp [put]
theorem put_ne {h : Heap} {x y : Addr} {c : Cell} (e : y ≠ x) : put h x c y = h y := by simp [put, e]

theorem isList_iff {s : St} {q : List Addr} : IsList s q ↔ q.Nodup ∧ s.hd = q.head? ∧ s.tl = q.getLast? ∧ Seg s.h none q none :=
  ⟨fun h => ⟨h.nodup, h.head, h.tail, seg_of_linked h.linked⟩, fun h => ⟨h.1, h.2.1, h.2.2.1, linked_of_seg h.2.2.2⟩⟩

/-- what lies in the heap around an object of the list -/
theorem seg_at {h : Heap} {a b : List Addr} {x : Addr} (hs : Seg h none (a ++ x :: b) none) : h x = some ⟨a.getLast?, b.head?⟩ :=
  linked_of_seg hs a x b rfl

/-- Cutting out x: the heap in which the neighbours are joined, whatever happens to `x` itself. -/
theorem seg_cut {h h' : Heap} {a b : List Addr} {x : Addr} (hn : (a ++ x :: b).Nodup) (hs : Seg h none (a ++ x :: b) none)
    (ha : ∀ a' y, a = a' ++ [y] → h' y = some ⟨a'.getLast?, b.head?⟩)
    (hb : ∀ z b', b = z :: b' → h' z = some ⟨a.getLast?, b'.head?⟩)
    (hrest : ∀ y ∈ a ++ b, a.getLast? ≠ some y → b.head? ≠ some y → h' y = h y) : Seg h' none (a ++ b) none := by
  rw [seg_append] at hs
  obtain ⟨h1, h2, h3⟩ := hs
  have hn' : (a ++ b).Nodup := by
    have := hn
    rw [List.nodup_append] at this ⊢
    refine ⟨this.1, (List.nodup_cons.1 this.2.1).2, fun y hy z hz => this.2.2 y hy z (by simp [hz])⟩
  have hd : ∀ y ∈ a, y ∉ b := by
    intro y hy hy'
    exact (List.nodup_append.1 hn').2.2 y hy y hy' rfl
  rw [seg_append]
  constructor
  · rcases List.eq_nil_or_concat a with rfl | ⟨a', y, rfl⟩
    · trivial
    · rw [List.concat_eq_append] at *
      rw [seg_append]
      rw [seg_append] at h1
      refine ⟨seg_congr (fun w hw => hrest w (by simp [hw]) ?_ ?_) h1.1, ?_⟩
      · simp only [List.getLast?_append, List.getLast?_singleton, Option.some_or, ne_eq, Option.some.injEq]
        rintro rfl
        have := (List.nodup_append.1 hn').1
        exact (List.nodup_append.1 this).2.2 _ hw _ (by simp) rfl
      · intro e
        exact hd w (by simp [hw]) (List.mem_of_mem_head? (by rw [e]; rfl))
      · have := ha a' y rfl
        simpa [Seg] using this
  · cases b with
    | nil => trivial
    | cons z b' =>
      refine ⟨by have := hb z b' rfl; simpa using this, seg_congr (fun w hw => hrest w (by simp [hw]) ?_ ?_) h3.2⟩
      · intro e
        exact hd w (List.mem_of_getLast? e) (by simp [hw])
      · simp only [List.head?_cons, ne_eq, Option.some.injEq]
        rintro rfl
        exact (List.nodup_cons.1 (List.nodup_append.1 hn').2.1).1 hw

theorem erase_split {a b : List Addr} {x : Addr} (hn : (a ++ x :: b).Nodup) : (a ++ x :: b).erase x = a ++ b := by
  have : x ∉ a := fun h => (List.nodup_append.1 hn).2.2 x h x (by simp) rfl
  rw [List.erase_append_right _ this, List.erase_cons_head]

/-- Distinctness facts about a split of a duplicate-free list. -/
theorem nodup_mid {a' b' : List Addr} {y x z : Addr} (hn : (a' ++ [y] ++ x :: z :: b').Nodup) : y ≠ x ∧ y ≠ z ∧ x ≠ z := by
  rw [List.nodup_append] at hn
  refine ⟨hn.2.2 y (by simp) x (by simp), hn.2.2 y (by simp) z (by simp), ?_⟩
  rintro rfl; have := hn.2.1; simp at this

theorem head_ne {a b : List Addr} {x : Addr} (hn : (a ++ x :: b).Nodup) (ha : a ≠ []) : (a ++ x :: b).head? ≠ some x := by
  cases a with
  | nil => exact absurd rfl ha
  | cons w a =>
    simp only [List.cons_append, List.head?_cons, ne_eq, Option.some.injEq]
    rintro rfl
    simp at hn

theorem last_ne {a b : List Addr} {x : Addr} (hn : (a ++ x :: b).Nodup) (hb : b ≠ []) : (a ++ x :: b).getLast? ≠ some x := by
  rcases List.eq_nil_or_concat b with rfl | ⟨b', w, rfl⟩
  · exact absurd rfl hb
  · rw [List.concat_eq_append] at *
    intro e
    have : (a ++ x :: (b' ++ [w])).getLast? = some w := by
      rw [show a ++ x :: (b' ++ [w]) = (a ++ x :: b') ++ [w] by simp, List.getLast?_append]; simp
    rw [this] at e
    simp only [Option.some.injEq] at e
    subst e
    have := (List.nodup_cons.1 (List.nodup_append.1 hn).2.1).1
    simp at this

theorem head_append {a b : List Addr} (ha : a ≠ []) : (a ++ b).head? = a.head? := by cases a <;> simp_all
theorem last_append {a b : List Addr} (hb : b ≠ []) : (a ++ b).getLast? = b.getLast? := by
  rcases List.eq_nil_or_concat b with rfl | ⟨b', w, rfl⟩
  · exact absurd rfl hb
  · simp [List.getLast?_append]

/-- The heap after `x` is cut out between `a` and `b`: the neighbours are joined. -/
def cut (h : Heap) (a : List Addr) (b : List Addr) : Heap := fun w =>
  if a.getLast? = some w then (h w).map (fun c => { c with next := b.head? })
  else if b.head? = some w then (h w).map (fun c => { c with prev := a.getLast? })
  else h w

/-- The heap after `x` is put in front of `q`. -/
def consHeap (h : Heap) (q : List Addr) (x : Addr) : Heap := fun w =>
  if w = x then some ⟨none, q.head?⟩
  else if q.head? = some w then (h w).map (fun c => { c with prev := some x })
  else h w

/-- The heap after `x` is put behind `q`. -/
def snocHeap (h : Heap) (q : List Addr) (x : Addr) : Heap := fun w =>
  if w = x then some ⟨q.getLast?, none⟩
  else if q.getLast? = some w then (h w).map (fun c => { c with next := some x })
  else h w

theorem seg_cutHeap {h : Heap} {a b : List Addr} {x : Addr} (hn : (a ++ x :: b).Nodup) (hs : Seg h none (a ++ x :: b) none) :
    Seg (cut h a b) none (a ++ b) none := by
  refine seg_cut hn hs ?_ ?_ ?_
  · rintro a' y rfl
    have := seg_at (a := a') (x := y) (b := x :: b) (h := h) (by simpa using hs)
    simp [cut, this]
  · rintro z b' rfl
    have hz := seg_at (a := a ++ [x]) (x := z) (b := b') (h := h) (by simpa using hs)
    have : a.getLast? ≠ some z := by
      intro e
      exact (List.nodup_append.1 hn).2.2 z (List.mem_of_getLast? e) z (by simp) rfl
    simp [cut, this, hz]
  · intro w _ h1 h2
    simp [cut, h1, h2]

theorem seg_consHeap {h : Heap} {q : List Addr} {x : Addr} (hn : (x :: q).Nodup) (hs : Seg h none q none) :
    Seg (consHeap h q x) none (x :: q) none := by
  refine ⟨by simp [consHeap], ?_⟩
  cases q with
  | nil => trivial
  | cons z q =>
    have hzx : z ≠ x := by rintro rfl; simp at hn
    refine ⟨by simp [consHeap, hzx, hs.1], seg_congr (fun w hw => ?_) hs.2⟩
    have h1 : w ≠ x := by rintro rfl; simp [hw] at hn
    have h2 : z ≠ w := by rintro rfl; simp [hw] at hn
    simp [consHeap, h1, h2]

theorem seg_snocHeap {h : Heap} {q : List Addr} {x : Addr} (hn : (q ++ [x]).Nodup) (hs : Seg h none q none) :
    Seg (snocHeap h q x) none (q ++ [x]) none := by
  rw [seg_append]
  refine ⟨?_, by simp [Seg, snocHeap]⟩
  rcases List.eq_nil_or_concat q with rfl | ⟨q', y, rfl⟩
  · trivial
  · rw [List.concat_eq_append] at *
    have hyx : y ≠ x := (List.nodup_append.1 hn).2.2 y (by simp) x (by simp)
    rw [seg_append] at hs ⊢
    refine ⟨seg_congr (fun w hw => ?_) hs.1, ?_⟩
    · have h1 : w ≠ x := (List.nodup_append.1 hn).2.2 w (by simp [hw]) x (by simp)
      have h2 : w ≠ y := (List.nodup_append.1 (List.nodup_append.1 hn).1).2.2 w hw y (by simp)
      simp [snocHeap, h1, h2.symm]
    · have := hs.2.1
      simp [Seg, snocHeap, hyx, this]

theorem cut_frame {h : Heap} {a b : List Addr} {w : Addr} (hw : w ∉ a ++ b) : cut h a b w = h w := by
  have h1 : a.getLast? ≠ some w := fun e => hw (by simp [List.mem_of_getLast? e])
  have h2 : b.head? ≠ some w := fun e => hw (by simp [List.mem_of_mem_head? (by rw [e]; rfl : w ∈ b.head?)])
  simp [cut, h1, h2]

theorem cut_alloc (h : Heap) (a b : List Addr) (w : Addr) : (cut h a b w).isSome = (h w).isSome := by
  unfold cut; split <;> [simp; (split <;> simp)]

theorem consHeap_frame {h : Heap} {q : List Addr} {x w : Addr} (hx : w ≠ x) (hw : w ∉ q) : consHeap h q x w = h w := by
  have h2 : q.head? ≠ some w := fun e => hw (List.mem_of_mem_head? (by rw [e]; rfl : w ∈ q.head?))
  simp [consHeap, hx, h2]

theorem consHeap_alloc {h : Heap} {q : List Addr} {x : Addr} (hx : (h x).isSome) (w : Addr) :
    (consHeap h q x w).isSome = (h w).isSome := by
  unfold consHeap; split <;> [(rename_i e; subst e; simp [hx]); (split <;> simp)]

theorem snocHeap_frame {h : Heap} {q : List Addr} {x w : Addr} (hx : w ≠ x) (hw : w ∉ q) : snocHeap h q x w = h w := by
  have h2 : q.getLast? ≠ some w := fun e => hw (List.mem_of_getLast? e)
  simp [snocHeap, hx, h2]

theorem snocHeap_alloc {h : Heap} {q : List Addr} {x : Addr} (hx : (h x).isSome) (w : Addr) :
    (snocHeap h q x w).isSome = (h w).isSome := by
  unfold snocHeap; split <;> [(rename_i e; subst e; simp [hx]); (split <;> simp)]

/-! ### Running the pointer programs -/

theorem remove_run {h : Heap} {hd tl : Ptr} {a b : List Addr} {x : Addr} (hn : (a ++ x :: b).Nodup)
    (hhd : hd = (a ++ x :: b).head?) (htl : tl = (a ++ x :: b).getLast?) (hs : Seg h none (a ++ x :: b) none) :
    remove ⟨h, hd, tl⟩ x = .ok ⟨put (cut h a b) x ⟨none, none⟩, (a ++ b).head?, (a ++ b).getLast?⟩ := by
  have hxc := seg_at hs
  have key : ∀ (h1 h2 : Heap) (p1 p2 q1 q2 : Ptr), h1 = h2 → p1 = p2 → q1 = q2 → (Except.ok ⟨h1, p1, q1⟩ : Res St) = .ok ⟨h2, p2, q2⟩ := by
    rintro _ _ _ _ _ _ rfl rfl rfl; rfl
  rcases List.eq_nil_or_concat a with rfl | ⟨a', y, rfl⟩
  · cases b with
    | nil =>
      simp at hhd htl hxc
      subst hhd htl
      simp [remove, rd, setNext, setPrev, hxc]
      funext w
      by_cases e : w = x <;> simp [put, cut, e]
    | cons z b' =>
      have hzc := seg_at (a := [x]) (x := z) (b := b') (h := h) (by simpa using hs)
      have hxz : x ≠ z := by rintro rfl; simp at hn
      have h2 : tl ≠ some x := by rw [htl]; exact last_ne hn (by simp)
      simp at hhd hxc hzc
      subst hhd
      simp [remove, rd, setNext, setPrev, hxc, hzc, h2.symm, put, hxz, hxz.symm]
      refine ⟨?_, by rw [htl]; simp⟩
      funext w
      by_cases e : w = x
      · simp [e]
      · by_cases e2 : w = z
        · subst e2; simp [put, cut, hzc, e]
        · simp [put, cut, e, e2, Ne.symm e2]
  · rw [List.concat_eq_append] at *
    have hxy : y ≠ x := (List.nodup_append.1 hn).2.2 y (by simp) x (by simp)
    have hyc := seg_at (a := a') (b := x :: b) (x := y) (h := h) (by simpa using hs)
    have h1 : hd ≠ some x := by rw [hhd]; exact head_ne hn (by simp)
    cases b with
    | nil =>
      simp at hxc hyc
      have h2 : tl = some x := by rw [htl]; simp
      simp [remove, rd, setNext, setPrev, hxc, h1.symm, h2, hyc, put, hxy, hxy.symm]
      refine ⟨?_, by rw [hhd]; cases a' <;> simp⟩
      funext w
      by_cases e : w = x
      · simp [e]
      · by_cases e2 : w = y
        · subst e2; simp [put, cut, hyc, e]
        · simp [put, cut, e, e2, Ne.symm e2]
    | cons z b' =>
      obtain ⟨_, hyz, hxz⟩ := nodup_mid hn
      have hzc := seg_at (a := a' ++ [y] ++ [x]) (x := z) (b := b') (h := h) (by simpa using hs)
      simp at hxc hyc hzc
      have h2 : tl ≠ some x := by rw [htl]; exact last_ne hn (by simp)
      simp [remove, rd, setNext, setPrev, hxc, h1.symm, h2.symm, hyc, hzc, put, hxy, hxy.symm, hxz, hxz.symm, hyz, hyz.symm]
      refine ⟨?_, by rw [hhd]; cases a' <;> simp, by rw [htl]; simp [List.getLast?_append]⟩
      funext w
      by_cases e : w = x
      · simp [e]
      · by_cases e2 : w = y
        · subst e2; simp [put, cut, hyc, e, hyz]
        · by_cases e3 : w = z
          · subst e3; simp [put, cut, hzc, e, Ne.symm e2]
          · simp [put, cut, e, e2, e3, Ne.symm e2, Ne.symm e3]

theorem prepend_run {h : Heap} {hd tl : Ptr} {q : List Addr} {x : Addr} (hx : (h x).isSome) (hn : x ∉ q)
    (hhd : hd = q.head?) (htl : tl = q.getLast?) (hs : Seg h none q none) :
    prepend ⟨h, hd, tl⟩ x = .ok ⟨consHeap h q x, some x, (x :: q).getLast?⟩ := by
  obtain ⟨c, hc⟩ := Option.isSome_iff_exists.1 hx
  cases q with
  | nil =>
    simp at hhd htl
    subst hhd htl
    simp [prepend, setNext, setPrev, hc]
    funext w
    by_cases e : w = x <;> simp [put, consHeap, e]
  | cons z q =>
    have hzx : z ≠ x := by rintro rfl; simp at hn
    have h2 : tl ≠ none := by rw [htl]; simp
    simp at hhd
    have := hs.1
    simp [prepend, setNext, setPrev, hc, hhd, h2, put, hzx, this]
    refine ⟨?_, by rw [htl]⟩
    funext w
    by_cases e : w = x
    · simp [put, e, consHeap, hzx.symm]
    · by_cases e2 : w = z
      · subst e2; simp [put, consHeap, this, e]
      · simp [put, consHeap, e, e2, Ne.symm e2]

theorem append_run {h : Heap} {hd tl : Ptr} {q : List Addr} {x : Addr} (hx : (h x).isSome) (hn : x ∉ q)
    (hhd : hd = q.head?) (htl : tl = q.getLast?) (hs : Seg h none q none) :
    append ⟨h, hd, tl⟩ x = .ok ⟨snocHeap h q x, (q ++ [x]).head?, some x⟩ := by
  obtain ⟨c, hc⟩ := Option.isSome_iff_exists.1 hx
  rcases List.eq_nil_or_concat q with rfl | ⟨q', y, rfl⟩
  · simp at hhd htl
    subst hhd htl
    simp [append, setNext, setPrev, hc]
    funext w
    by_cases e : w = x <;> simp [put, snocHeap, e]
  · rw [List.concat_eq_append] at *
    have hyx : y ≠ x := by rintro rfl; simp at hn
    have h2 : hd ≠ none := by rw [hhd]; simp
    have hyc := seg_at (a := q') (x := y) (b := []) hs
    simp at htl hyc
    simp [append, setNext, setPrev, hc, htl, h2, put, hyx, hyc]
    refine ⟨?_, by rw [hhd]; cases q' <;> simp⟩
    funext w
    by_cases e : w = x
    · simp [put, e, snocHeap, hyx.symm]
    · by_cases e2 : w = y
      · subst e2; simp [put, snocHeap, hyc, e]
      · simp [put, snocHeap, e, e2, Ne.symm e2]

/-- head and tail of a list with at least two elements differ -/
theorem head_ne_last {q : List Addr} (hn : q.Nodup) {a b : List Addr} {x : Addr} (e : q = a ++ x :: b) (h : a ≠ [] ∨ b ≠ []) :
    q.head? ≠ q.getLast? := by
  match q, hn with
  | [], _ => simp at e
  | [w], _ =>
    cases a with
    | nil => cases b with
      | nil => simp at h
      | cons z b => simp at e
    | cons v a => simp at e
  | w :: v :: q, hn =>
    rw [List.getLast?_cons_cons, List.head?_cons]
    intro e
    exact (List.nodup_cons.1 hn).1 (List.mem_of_getLast? e.symm)

theorem moveToHead_run {h : Heap} {hd tl : Ptr} {a b : List Addr} {x : Addr} (ha : a ≠ []) (hn : (a ++ x :: b).Nodup)
    (hhd : hd = (a ++ x :: b).head?) (htl : tl = (a ++ x :: b).getLast?) (hs : Seg h none (a ++ x :: b) none) :
    moveToHead ⟨h, hd, tl⟩ x = .ok ⟨consHeap (cut h a b) (a ++ b) x, some x, (a ++ b).getLast?⟩ := by
  have hxc := seg_at hs
  have h0 : hd ≠ tl := by rw [hhd, htl]; exact head_ne_last hn rfl (.inl ha)
  have h1 : hd ≠ some x := by rw [hhd]; exact head_ne hn ha
  obtain ⟨g, a0, hg⟩ := List.exists_cons_of_ne_nil ha
  have hgd : hd = some g := by rw [hhd, hg]; rfl
  have hgc : ∃ n, h g = some ⟨none, n⟩ := by
    have := seg_at (a := []) (x := g) (b := a0 ++ x :: b) (h := h) (by rw [hg] at hs; simpa using hs)
    exact ⟨_, this⟩
  obtain ⟨ng, hgc⟩ := hgc
  have hgx : g ≠ x := by rintro rfl; exact h1 hgd
  have hgb : g ∉ b := by
    intro e; rw [hg] at hn; simp at hn; exact hn.1.2.2 e
  have hqh : (a ++ b).head? = some g := by rw [hg]; rfl
  rcases List.eq_nil_or_concat a with rfl | ⟨a', y, rfl⟩
  · exact absurd rfl ha
  rw [List.concat_eq_append] at *
  have hxy : y ≠ x := (List.nodup_append.1 hn).2.2 y (by simp) x (by simp)
  have hyc := seg_at (a := a') (b := x :: b) (x := y) (h := h) (by simpa using hs)
  subst hgd
  clear hg
  cases b with
  | nil =>
    simp at hxc hyc
    have h2 : tl = some x := by rw [htl]; simp
    subst h2
    by_cases egy : g = y
    · subst egy
      simp [moveToHead, h0, h1.symm, rd, setNext, setPrev, hxc, hyc, put, hgx, hgx.symm]
      funext w
      by_cases e : w = x
      · simp [put, e, consHeap, hgx.symm, hqh] at hqh ⊢
        simp [hqh]
      · by_cases e2 : w = g
        · subst e2; simp at hqh; simp [put, consHeap, cut, hyc, e, hqh]
        · simp at hqh; simp [put, consHeap, cut, e, e2, Ne.symm e2, hqh]
    · have egy' : y ≠ g := Ne.symm egy
      simp [moveToHead, h0, h1.symm, rd, setNext, setPrev, hxc, hyc, hgc, put, hgx, hgx.symm, egy, egy', hxy, hxy.symm]
      funext w
      by_cases e : w = x
      · simp [put, e, consHeap, hgx.symm, hxy.symm] at hqh ⊢
        simp [hqh]
      · by_cases e2 : w = g
        · subst e2; simp at hqh; simp [put, consHeap, cut, hgc, e, hqh, egy']
        · by_cases e3 : w = y
          · subst e3; simp at hqh; simp [put, consHeap, cut, hyc, e, hqh, egy, e2]
          · simp at hqh; simp [put, consHeap, cut, e, e2, e3, Ne.symm e2, Ne.symm e3, hqh]
  | cons z b' =>
    obtain ⟨_, hyz, hxz⟩ := nodup_mid hn
    have hzc := seg_at (a := a' ++ [y] ++ [x]) (x := z) (b := b') (h := h) (by simpa using hs)
    simp at hxc hyc hzc
    have hgz : g ≠ z := by rintro rfl; simp at hgb
    have h2 : tl ≠ some x := by rw [htl]; exact last_ne hn (by simp)
    have htl' : tl = (a' ++ [y] ++ z :: b').getLast? := by rw [htl]; simp [List.getLast?_append]
    by_cases egy : g = y
    · subst egy
      simp [moveToHead, h0, h1.symm, h2.symm, rd, setNext, setPrev, hxc, hyc, hzc, put, hgx, hgx.symm, hgz, hgz.symm, hxz, hxz.symm]
      refine ⟨?_, by rw [htl']; simp⟩
      funext w
      by_cases e : w = x
      · simp [put, e, consHeap, hgx.symm, hxz] at hqh ⊢
        simp [hqh]
      · by_cases e2 : w = g
        · subst e2; simp at hqh; simp [put, consHeap, cut, hyc, e, hqh]
        · by_cases e3 : w = z
          · subst e3; simp at hqh; simp [put, consHeap, cut, hzc, e, hqh, hgz, e2]
          · simp at hqh; simp [put, consHeap, cut, e, e2, e3, Ne.symm e2, Ne.symm e3, hqh]
    · have egy' : y ≠ g := Ne.symm egy
      simp [moveToHead, h0, h1.symm, h2.symm, rd, setNext, setPrev, hxc, hyc, hzc, hgc, put, hgx, hgx.symm, hgz, hgz.symm, hxz, hxz.symm, hxy, hxy.symm, egy, egy', hyz, hyz.symm]
      refine ⟨?_, by rw [htl']; simp⟩
      funext w
      by_cases e : w = x
      · simp [put, e, consHeap, hgx.symm, hxz, hxy.symm] at hqh ⊢
        simp [hqh]
      · by_cases e2 : w = g
        · subst e2; simp at hqh; simp [put, consHeap, cut, hgc, e, hqh, egy', hgz, hgz.symm]
        · by_cases e3 : w = z
          · subst e3; simp at hqh; simp [put, consHeap, cut, hzc, e, hqh, hgz, e2, hyz]
          · by_cases e4 : w = y
            · subst e4; simp at hqh; simp [put, consHeap, cut, hyc, e, hqh, egy, hyz, e2]
            · simp at hqh; simp [put, consHeap, cut, e, e2, e3, e4, Ne.symm e2, Ne.symm e3, Ne.symm e4, hqh]

theorem moveToTail_run {h : Heap} {hd tl : Ptr} {a b : List Addr} {x : Addr} (hb : b ≠ []) (hn : (a ++ x :: b).Nodup)
    (hhd : hd = (a ++ x :: b).head?) (htl : tl = (a ++ x :: b).getLast?) (hs : Seg h none (a ++ x :: b) none) :
    moveToTail ⟨h, hd, tl⟩ x = .ok ⟨snocHeap (cut h a b) (a ++ b) x, (a ++ b).head?, some x⟩ := by
  have hxc := seg_at hs
  have h0 : hd ≠ tl := by rw [hhd, htl]; exact head_ne_last hn rfl (.inr hb)
  have h1 : tl ≠ some x := by rw [htl]; exact last_ne hn hb
  obtain ⟨b0, g, hg⟩ : ∃ b0 g, b = b0 ++ [g] := by
    rcases List.eq_nil_or_concat b with rfl | ⟨b', w, rfl⟩
    · exact absurd rfl hb
    · exact ⟨b', w, by simp⟩
  have hgd : tl = some g := by rw [htl, hg]; simp [List.getLast?_append, List.getLast?_cons]
  have hgc : ∃ n, h g = some ⟨n, none⟩ := by
    have := seg_at (a := a ++ x :: b0) (x := g) (b := []) (h := h) (by rw [hg] at hs; simpa using hs)
    exact ⟨_, this⟩
  obtain ⟨ng, hgc⟩ := hgc
  have hgx : g ≠ x := by rintro rfl; exact h1 hgd
  have hga : g ∉ a := by
    intro e; rw [hg] at hn; exact (List.nodup_append.1 hn).2.2 g e g (by simp) rfl
  have hql : (a ++ b).getLast? = some g := by rw [hg]; simp [List.getLast?_append]
  cases b with
  | nil => exact absurd rfl hb
  | cons z b' =>
  have hxz : x ≠ z := by
    rintro rfl; have := (List.nodup_append.1 hn).2.1; simp at this
  have hzc := seg_at (a := a ++ [x]) (b := b') (x := z) (h := h) (by simpa using hs)
  subst hgd
  clear hg
  rcases List.eq_nil_or_concat a with rfl | ⟨a', y, rfl⟩
  · simp at hxc hzc hhd
    subst hhd
    by_cases egz : g = z
    · subst egz
      simp [moveToTail, h0, rd, setNext, setPrev, hxc, hzc, put, hgx, hgx.symm]
      funext w
      by_cases e : w = x
      · simp [put, e, snocHeap, hgx.symm] at hql ⊢
        simp [hql]
      · by_cases e2 : w = g
        · subst e2; simp at hql; simp [put, snocHeap, cut, hzc, e, hql]
        · simp at hql; simp [put, snocHeap, cut, e, e2, Ne.symm e2, hql]
    · have egz' : z ≠ g := Ne.symm egz
      simp [moveToTail, h0, rd, setNext, setPrev, hxc, hzc, hgc, put, hgx, hgx.symm, egz, egz', hxz, hxz.symm]
      funext w
      by_cases e : w = x
      · simp [put, e, snocHeap, hgx.symm, hxz] at hql ⊢
        simp [hql]
      · by_cases e2 : w = g
        · subst e2; simp at hql; simp [put, snocHeap, cut, hgc, e, hql, egz']
        · by_cases e3 : w = z
          · subst e3; simp at hql; simp [put, snocHeap, cut, hzc, e, hql, egz, e2]
          · simp at hql; simp [put, snocHeap, cut, e, e2, e3, Ne.symm e2, Ne.symm e3, hql]
  · rw [List.concat_eq_append] at *
    obtain ⟨hxy, hyz, _⟩ := nodup_mid hn
    have hyc := seg_at (a := a') (b := x :: z :: b') (x := y) (h := h) (by simpa using hs)
    have h2 : hd ≠ some x := by rw [hhd]; exact head_ne hn (by simp)
    have hgy : g ≠ y := by rintro rfl; simp at hga
    simp at hxc hzc hyc
    have hhd' : hd = (a' ++ [y] ++ z :: b').head? := by rw [hhd]; cases a' <;> simp
    by_cases egz : g = z
    · subst egz
      simp [moveToTail, h0, h2.symm, h1.symm, rd, setNext, setPrev, hxc, hyc, hzc, put, hgx, hgx.symm, hxy, hxy.symm, hgy, hgy.symm]
      refine ⟨?_, by rw [hhd']; simp⟩
      funext w
      by_cases e : w = x
      · simp [put, e, snocHeap, hgx.symm, hxy.symm] at hql ⊢
        simp [hql]
      · by_cases e2 : w = g
        · subst e2; simp at hql; simp [put, snocHeap, cut, hzc, e, hql, hgy.symm]
        · by_cases e3 : w = y
          · subst e3; simp at hql; simp [put, snocHeap, cut, hyc, e, hql, hgy, e2]
          · simp at hql; simp [put, snocHeap, cut, e, e2, e3, Ne.symm e2, Ne.symm e3, hql]
    · have egz' : z ≠ g := Ne.symm egz
      simp [moveToTail, h0, h2.symm, h1.symm, rd, setNext, setPrev, hxc, hyc, hzc, hgc, put, hgx, hgx.symm, hxy, hxy.symm, hgy, hgy.symm, egz, egz', hxz, hxz.symm, hyz, hyz.symm]
      refine ⟨?_, by rw [hhd']; simp⟩
      funext w
      by_cases e : w = x
      · simp [put, e, snocHeap, hgx.symm, hxy.symm, hxz] at hql ⊢
        simp [hql]
      · by_cases e2 : w = g
        · subst e2; simp at hql; simp [put, snocHeap, cut, hgc, e, hql, hgy.symm, hgy, egz']
        · by_cases e3 : w = y
          · subst e3; simp at hql; simp [put, snocHeap, cut, hyc, e, hql, hgy, e2, hyz]
          · by_cases e4 : w = z
            · subst e4; simp at hql; simp [put, snocHeap, cut, hzc, e, hql, egz, hyz, e2]
            · simp at hql; simp [put, snocHeap, cut, e, e2, e3, e4, Ne.symm e2, Ne.symm e3, Ne.symm e4, hql]

theorem dropTail_run {h : Heap} {hd tl : Ptr} {a : List Addr} {x : Addr} (hn : (a ++ [x]).Nodup)
    (hhd : hd = (a ++ [x]).head?) (htl : tl = (a ++ [x]).getLast?) (hs : Seg h none (a ++ [x]) none) :
    dropTail ⟨h, hd, tl⟩ = .ok ⟨cut h a [], a.head?, a.getLast?⟩ := by
  have hxc := seg_at hs
  have h2 : tl = some x := by rw [htl]; simp
  subst h2
  rcases List.eq_nil_or_concat a with rfl | ⟨a', y, rfl⟩
  · simp at hxc
    simp [dropTail, rd, hxc]
    funext w; simp [cut]
  · rw [List.concat_eq_append] at *
    have hyc := seg_at (a := a') (b := [x]) (x := y) (h := h) (by simpa using hs)
    simp at hxc hyc
    simp [dropTail, rd, hxc, setNext, hyc]
    refine ⟨?_, by rw [hhd]; cases a' <;> simp⟩
    funext w
    by_cases e : w = y
    · subst e; simp [put, cut, hyc]
    · simp [put, cut, e, Ne.symm e]

/-! ### The operations on lists -/

/-- What one operation guarantees: the new list, nothing but the list's objects and `x` touched, nothing allocated or freed. -/
structure Does (s s' : St) (q q' : List Addr) (x : Addr) : Prop where
  list : IsList s' q'
  frame : ∀ y, y ∉ q → y ≠ x → s'.h y = s.h y
  alloc : ∀ y, (s'.h y).isSome = (s.h y).isSome

theorem remove_spec {s : St} {q : List Addr} (hq : IsList s q) {x : Addr} (hx : x ∈ q) :
    ∃ s', remove s x = .ok s' ∧ Does s s' q (q.erase x) x ∧ s'.h x = some ⟨none, none⟩ := by
  obtain ⟨hn, hhd, htl, hs⟩ := isList_iff.1 hq
  obtain ⟨a, b, rfl⟩ := List.append_of_mem hx
  obtain ⟨h, hd, tl⟩ := s
  have hxc := seg_at hs
  refine ⟨_, remove_run hn hhd htl hs, ⟨isList_iff.2 ⟨hn.erase _, ?_, ?_, ?_⟩, ?_, ?_⟩, by simp⟩
  · rw [erase_split hn]
  · rw [erase_split hn]
  · rw [erase_split hn]
    refine seg_congr (fun w hw => ?_) (seg_cutHeap hn hs)
    have : w ≠ x := by
      rintro rfl
      have := erase_split hn ▸ hw
      exact (hn.mem_erase_iff.1 this).1 rfl
    simp [put, this]
  · intro w hw hwx
    simp only [put, hwx, if_false]
    exact cut_frame (fun e => hw (by simp at e ⊢; tauto))
  · intro w
    by_cases e : w = x
    · subst e; simp at hxc ⊢; simp [hxc]
    · simp only [put, e, if_false]; exact cut_alloc _ _ _ _

theorem prepend_spec {s : St} {q : List Addr} (hq : IsList s q) {x : Addr} (hx : x ∉ q) (ha : (s.h x).isSome) :
    ∃ s', prepend s x = .ok s' ∧ Does s s' q (x :: q) x := by
  obtain ⟨hn, hhd, htl, hs⟩ := isList_iff.1 hq
  obtain ⟨h, hd, tl⟩ := s
  have hn' : (x :: q).Nodup := List.nodup_cons.2 ⟨hx, hn⟩
  exact ⟨_, prepend_run ha hx hhd htl hs, isList_iff.2 ⟨hn', rfl, rfl, seg_consHeap hn' hs⟩,
    fun w hw hwx => consHeap_frame hwx hw, fun w => consHeap_alloc ha w⟩

theorem append_spec {s : St} {q : List Addr} (hq : IsList s q) {x : Addr} (hx : x ∉ q) (ha : (s.h x).isSome) :
    ∃ s', append s x = .ok s' ∧ Does s s' q (q ++ [x]) x := by
  obtain ⟨hn, hhd, htl, hs⟩ := isList_iff.1 hq
  obtain ⟨h, hd, tl⟩ := s
  have hn' : (q ++ [x]).Nodup := by
    rw [List.nodup_append]
    refine ⟨hn, by simp, ?_⟩
    intro a ha' b hb; simp at hb; subst hb; rintro rfl; exact hx ha'
  exact ⟨_, append_run ha hx hhd htl hs, isList_iff.2 ⟨hn', rfl, by simp, seg_snocHeap hn' hs⟩,
    fun w hw hwx => snocHeap_frame hwx hw, fun w => snocHeap_alloc ha w⟩

theorem moveToHead_spec {s : St} {q : List Addr} (hq : IsList s q) {x : Addr} (hx : x ∈ q) :
    ∃ s', moveToHead s x = .ok s' ∧ Does s s' q (x :: q.erase x) x := by
  obtain ⟨hn, hhd, htl, hs⟩ := isList_iff.1 hq
  obtain ⟨a, b, rfl⟩ := List.append_of_mem hx
  by_cases ha : a = []
  · subst ha
    refine ⟨s, ?_, ⟨by simpa using hq, fun _ _ _ => rfl, fun _ => rfl⟩⟩
    simp at hhd
    simp [moveToHead, hhd]
  · obtain ⟨h, hd, tl⟩ := s
    have hn' : (x :: (a ++ b)).Nodup := (List.perm_middle).nodup_iff.1 hn
    have hxa := (List.nodup_cons.1 hn').1
    have hxc := seg_at hs
    rw [erase_split hn]
    refine ⟨_, moveToHead_run ha hn hhd htl hs, isList_iff.2 ⟨hn', rfl, ?_, seg_consHeap hn' (seg_cutHeap hn hs)⟩, ?_, ?_⟩
    · simp only
      have hne : a ++ b ≠ [] := by simp [ha]
      rw [show x :: (a ++ b) = [x] ++ (a ++ b) from rfl, last_append hne]
    · intro w hw hwx
      have : w ∉ a ++ b := fun e => hw (by simp at e ⊢; tauto)
      simp only
      rw [consHeap_frame hwx this, cut_frame this]
    · intro w
      simp only
      rw [consHeap_alloc (by rw [cut_alloc]; simp at hxc; simp [hxc]), cut_alloc]

theorem moveToTail_spec {s : St} {q : List Addr} (hq : IsList s q) {x : Addr} (hx : x ∈ q) :
    ∃ s', moveToTail s x = .ok s' ∧ Does s s' q (q.erase x ++ [x]) x := by
  obtain ⟨hn, hhd, htl, hs⟩ := isList_iff.1 hq
  obtain ⟨a, b, rfl⟩ := List.append_of_mem hx
  have hxc := seg_at hs
  rw [erase_split hn]
  by_cases hb : b = []
  · subst hb
    refine ⟨s, ?_, ⟨by simpa using hq, fun _ _ _ => rfl, fun _ => rfl⟩⟩
    have htl' : s.tl = some x := by rw [htl]; simp
    by_cases ha : a = []
    · subst ha
      simp at hhd hxc
      simp [moveToTail, hhd, htl', rd, hxc]
    · have h1 : s.hd ≠ some x := by rw [hhd]; exact head_ne hn ha
      simp [moveToTail, htl', h1, h1.symm]
  · obtain ⟨h, hd, tl⟩ := s
    have hn0 : (x :: (a ++ b)).Nodup := (List.perm_middle).nodup_iff.1 hn
    have hn' : (a ++ b ++ [x]).Nodup := (List.perm_append_singleton x (a ++ b)).nodup_iff.2 hn0
    refine ⟨_, moveToTail_run hb hn hhd htl hs, isList_iff.2 ⟨hn', ?_, by simp, seg_snocHeap hn' (seg_cutHeap hn hs)⟩, ?_, ?_⟩
    · simp only
      have hne : a ++ b ≠ [] := by simp [hb]
      rw [head_append hne]
    · intro w hw hwx
      have : w ∉ a ++ b := fun e => hw (by simp at e ⊢; tauto)
      simp only
      rw [snocHeap_frame hwx this, cut_frame this]
    · intro w
      simp only
      rw [snocHeap_alloc (by rw [cut_alloc]; simp at hxc; simp [hxc]), cut_alloc]

theorem dropTail_spec {s : St} {q : List Addr} (hq : IsList s q) (hne : q ≠ []) :
    ∃ s' x, dropTail s = .ok s' ∧ x ∈ q ∧ Does s s' q q.dropLast x := by
  obtain ⟨hn, hhd, htl, hs⟩ := isList_iff.1 hq
  rcases List.eq_nil_or_concat q with rfl | ⟨a, x, rfl⟩
  · exact absurd rfl hne
  · rw [List.concat_eq_append] at *
    obtain ⟨h, hd, tl⟩ := s
    rw [List.dropLast_concat]
    have := seg_cutHeap (b := []) hn hs
    rw [List.append_nil] at this
    refine ⟨_, x, dropTail_run hn hhd htl hs, by simp, isList_iff.2 ⟨(List.nodup_append.1 hn).1, rfl, rfl, this⟩, ?_, ?_⟩
    · intro w hw _
      exact cut_frame (fun e => hw (by simp at e ⊢; tauto))
    · intro w; exact cut_alloc _ _ _ _

theorem dropHead_spec {s : St} {x y : Addr} {q : List Addr} (hq : IsList s (x :: y :: q)) :
    ∃ s', dropHead s = .ok s' ∧ Does s s' (x :: y :: q) (y :: q) x := by
  obtain ⟨hn, hhd, htl, hs⟩ := isList_iff.1 hq
  obtain ⟨h, hd, tl⟩ := s
  obtain ⟨h1, h2⟩ := hs
  have h3 := h2.1
  simp at hhd h1 h3 htl
  subst hhd
  refine ⟨⟨put h y ⟨none, q.head?⟩, some y, tl⟩, by simp [dropHead, rd, h1, setPrev, h3],
    isList_iff.2 ⟨(List.nodup_cons.1 hn).2, rfl, ?_, ?_⟩, ?_, ?_⟩
  · simp only [htl]
  · have := seg_setFirst (m := none) (List.nodup_cons.1 hn).2 h2
    simpa using this
  · intro w hw _
    simp at hw
    simp [put, hw.2.1]
  · intro w
    by_cases e : w = y
    · subst e; simp [h3]
    · simp [put, e]

/-! ### Many lists, many operations -/

theorem Lists_put_get_self (m : Lists) (l : Nat) (s : St) : (m.put l s).get l = s := by
  simp [Lists.get, Lists.put]

theorem lists_put {m : Lists} {q : Nat → List Addr} (hm : AreLists m q) {l : Nat} {s' : St} {q' : List Addr} {x : Addr}
    (hd : Does (m.get l) s' (q l) q' x) (hx : ∀ k, k ≠ l → x ∉ q k) (hsub : ∀ y ∈ q', y ∈ q l ∨ y = x) :
    AreLists (m.put l s') (fun k => if k = l then q' else q k) := by
  constructor
  · intro k
    by_cases e : k = l
    · subst e
      rw [Lists_put_get_self]
      simp only [if_true]; exact hd.list
    · have h0 := hm.each k
      simp only [e, if_false]
      obtain ⟨hn, hhd, htl, hs⟩ := isList_iff.1 h0
      refine isList_iff.2 ⟨hn, ?_, ?_, ?_⟩
      · simp only [Lists.get, Lists.put, e, if_false]; exact hhd
      · simp only [Lists.get, Lists.put, e, if_false]; exact htl
      · refine seg_congr (fun w hw => ?_) hs
        exact hd.frame w (fun hw' => e (hm.apart k l w hw hw')) (fun ew => hx k e (ew ▸ hw))
  · intro k j y hk hj
    by_cases e1 : k = l <;> by_cases e2 : j = l
    · rw [e1, e2]
    · simp only [e1, e2, if_true, if_false] at hk hj
      rcases hsub y hk with h1 | h1
      · rw [e1]; exact hm.apart l j y h1 hj
      · exact absurd (h1 ▸ hj) (hx j e2)
    · simp only [e1, e2, if_true, if_false] at hk hj
      rcases hsub y hj with h1 | h1
      · rw [e2]; exact hm.apart k l y hk h1
      · exact absurd (h1 ▸ hk) (hx k e1)
    · simp only [e1, e2, if_false] at hk hj
      exact hm.apart k j y hk hj

theorem step_spec {m : Lists} {q : Nat → List Addr} (hm : AreLists m q) (op : LOp)
    (ha : op.allowed (fun x => (m.h x).isSome) q) :
    ∃ m', m.step op = .ok m' ∧ AreLists m' (op.effect q) ∧ (∀ y, (m'.h y).isSome = (m.h y).isSome) ∧
      ∀ y, (∀ k, y ∉ q k) → (∀ k, y ∉ op.effect q k) → m'.h y = m.h y := by
  cases op with
  | prepend l x =>
    obtain ⟨s', h1, h2⟩ := prepend_spec (hm.each l) (ha.2 l) ha.1
    refine ⟨_, by simp only [Lists.step, h1, Res.bind_ok], lists_put hm h2 (fun k _ => ha.2 k) (by simp; tauto), h2.alloc, ?_⟩
    intro y hy hy'
    have := hy' l; simp [LOp.effect] at this
    exact h2.frame y (hy l) this.1
  | append l x =>
    obtain ⟨s', h1, h2⟩ := append_spec (hm.each l) (ha.2 l) ha.1
    refine ⟨_, by simp only [Lists.step, h1, Res.bind_ok], lists_put hm h2 (fun k _ => ha.2 k) (by simp), h2.alloc, ?_⟩
    intro y hy hy'
    have := hy' l; simp [LOp.effect] at this
    exact h2.frame y (hy l) this.2
  | toHead l x =>
    have ha' : x ∈ q l := ha
    obtain ⟨s', h1, h2⟩ := moveToHead_spec (hm.each l) ha'
    refine ⟨_, by simp only [Lists.step, h1, Res.bind_ok], lists_put hm h2 (fun k hk hxk => hk (hm.apart k l x hxk ha')) ?_, h2.alloc, ?_⟩
    · intro y hy
      rcases List.mem_cons.1 hy with h | h
      · exact .inr h
      · exact .inl (List.mem_of_mem_erase h)
    · intro y hy hy'
      exact h2.frame y (hy l) (fun e => hy l (e ▸ ha'))
  | toTail l x =>
    have ha' : x ∈ q l := ha
    obtain ⟨s', h1, h2⟩ := moveToTail_spec (hm.each l) ha'
    refine ⟨_, by simp only [Lists.step, h1, Res.bind_ok], lists_put hm h2 (fun k hk hxk => hk (hm.apart k l x hxk ha')) ?_, h2.alloc, ?_⟩
    · intro y hy
      rcases List.mem_append.1 hy with h | h
      · exact .inl (List.mem_of_mem_erase h)
      · exact .inr (by simpa using h)
    · intro y hy hy'
      exact h2.frame y (hy l) (fun e => hy l (e ▸ ha'))
  | remove l x =>
    have ha' : x ∈ q l := ha
    obtain ⟨s', h1, h2, _⟩ := remove_spec (hm.each l) ha'
    refine ⟨_, by simp only [Lists.step, h1, Res.bind_ok], lists_put hm h2 (fun k hk hxk => hk (hm.apart k l x hxk ha'))
      (fun y hy => .inl (List.mem_of_mem_erase hy)), h2.alloc, ?_⟩
    intro y hy hy'
    exact h2.frame y (hy l) (fun e => hy l (e ▸ ha'))
  | dropTail l =>
    have ha' : q l ≠ [] := ha
    obtain ⟨s', x, h1, hx, h2⟩ := dropTail_spec (hm.each l) ha'
    refine ⟨_, by simp only [Lists.step, h1, Res.bind_ok], lists_put hm h2 (fun k hk hxk => hk (hm.apart k l x hxk hx))
      (fun y hy => .inl ((List.dropLast_subset _ hy))), h2.alloc, ?_⟩
    intro y hy hy'
    exact h2.frame y (hy l) (fun e => hy l (e ▸ hx))

theorem run_spec {ops : List LOp} : ∀ {m : Lists} {q : Nat → List Addr}, AreLists m q →
    LOp.allAllowed (fun x => (m.h x).isSome) q ops →
    ∃ m', m.run ops = .ok m' ∧ AreLists m' (ops.foldl LOp.effect q) ∧ (∀ y, (m'.h y).isSome = (m.h y).isSome) := by
  induction ops with
  | nil => intro m q hm _; exact ⟨m, rfl, hm, fun _ => rfl⟩
  | cons op ops ih =>
    intro m q hm ha
    obtain ⟨m1, h1, h2, h3, _⟩ := step_spec hm op ha.1
    have h4 : LOp.allAllowed (fun x => (m1.h x).isSome) (op.effect q) ops := by
      have e : (fun x => ((m1.h x).isSome = true)) = fun x => ((m.h x).isSome = true) := by
        funext x; rw [h3]
      rw [e]; exact ha.2
    obtain ⟨m2, h5, h6, h7⟩ := ih h2 h4
    exact ⟨m2, by simp only [Lists.run, h1, Res.bind_ok, h5], h6, fun y => (h7 y).trans (h3 y)⟩

/-! ### Traversals -/

theorem forward_seg {h : Heap} {q : List Addr} {p : Ptr} (hs : Seg h p q none) {n : Nat} (hn : q.length ≤ n) :
    forward h n q.head? = q := by
  induction q generalizing p n with
  | nil => cases n <;> rfl
  | cons x q ih =>
    cases n with
    | zero => simp at hn
    | succ n =>
      simp only [List.head?_cons, forward, hs.1]
      have := ih hs.2 (n := n) (by simpa using hn)
      simp [this]

theorem backward_seg {h : Heap} : ∀ (n : Nat) {q : List Addr}, Linked h q → q.length ≤ n →
    backward h n q.getLast? = q.reverse := by
  intro n
  induction n with
  | zero => intro q _ hn; have : q = [] := List.length_eq_zero_iff.1 (by omega); subst this; rfl
  | succ n ih =>
    intro q hl hn
    rcases List.eq_nil_or_concat q with rfl | ⟨a, x, rfl⟩
    · rfl
    · rw [List.concat_eq_append] at *
      have hx := hl a x [] rfl
      -- walk on in the prefix
      have hw : ∀ (m : Nat) (c : List Addr), (∃ t, a = c ++ t) → c.length ≤ m → backward h m c.getLast? = c.reverse := by
        intro m
        induction m with
        | zero => intro c _ hc; have : c = [] := List.length_eq_zero_iff.1 (by omega); subst this; rfl
        | succ m ihm =>
          rintro c ⟨t, ht⟩ hc
          rcases List.eq_nil_or_concat c with rfl | ⟨c', y, rfl⟩
          · rfl
          · rw [List.concat_eq_append] at *
            have hy := hl c' y (t ++ [x]) (by rw [ht]; simp)
            have := ihm c' ⟨y :: t, by rw [ht]; simp⟩ (by simp at hc; omega)
            simp [backward, hy, this]
      have := hw n a ⟨[], by simp⟩ (by simp at hn; omega)
      simp [backward, hx, this]

end Verif.DList
