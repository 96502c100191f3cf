import Verif.Algo.SLRUv0
import Verif.Proof.QRep
import Verif.Proof.Segments
/-!
# Segments that are caches of their own

Facts shared by SLRUv0 and SFIFOv0: an array of queue caches seen as segments of (object, charged bytes).
-/

namespace Verif.SegCaches
open Verif Spec Segmented

/-- an array of queue caches -/
abbrev Arr := Nat → QState Unit

/-- write one array element -/
abbrev upd (f : Arr) (i : Nat) (v : QState Unit) : Arr := SLRUv0.upd f i v

theorem upd_self (f : Arr) (i : Nat) (v : QState Unit) : upd f i v i = v := by simp [upd, SLRUv0.upd]
theorem upd_ne (f : Arr) {i j : Nat} (h : j ≠ i) (v : QState Unit) : upd f i v j = f j := by simp [upd, SLRUv0.upd, h]

/-- ids with charged bytes -/
def chg (md : Nat) (l : List (Obj Unit)) : Contents := l.map (fun o => (o.id, o.size + md))

theorem chg_ids (md : Nat) (l : List (Obj Unit)) : (chg md l).ids = l.map (·.id) := by simp [chg, Contents.ids, Function.comp_def]
theorem chg_charge (md : Nat) (l : List (Obj Unit)) : charge 0 (chg md l) = charge md (cont l) := by
  induction l with
  | nil => rfl
  | cons o l ih => simp only [chg, cont, List.map_cons, charge] at ih ⊢; omega
theorem chg_del (md : Nat) (id : ObjId) (l : List (Obj Unit)) : chg md (delL id l) = without id (chg md l) := by
  simp only [chg, delL, without, List.filter_map]; rfl

/-- The segments `a` of the first `n` caches of `g`, each of `L` bytes. -/
structure Abs (L md n : Nat) (a : Segs) (g : Arr) : Prop where
  rep : ∀ k, k < n → ∃ l, Rep L md (g k) l ∧ a k = chg md l
  out : ∀ k, n ≤ k → a k = []
  uniq : ∀ i j x y, x ∈ a i → y ∈ a j → x.1 = y.1 → i = j

/-- Everything in `a'` is in `a`. -/
def Sub (a' a : Segs) : Prop := ∀ j y, y ∈ a' j → ∃ i, y ∈ a i

theorem Sub.refl (a : Segs) : Sub a a := fun j _ h => ⟨j, h⟩
theorem Sub.trans {a b c : Segs} (h : Sub a b) (h' : Sub b c) : Sub a c := fun j y hy => let ⟨i, hi⟩ := h j y hy; h' i y hi

/-- no segment holds `id` -/
def Absent (id : ObjId) (a : Segs) : Prop := ∀ i, ∀ y ∈ a i, y.1 ≠ id

theorem Absent.sub {id : ObjId} {a' a : Segs} (h : Absent id a) (hs : Sub a' a) : Absent id a' := by
  intro i y hy
  obtain ⟨j, hj⟩ := hs i y hy
  exact h j y hj

theorem last_of_pos {c : Contents} (h : 0 < charge 0 c) : ∃ d x, c = d ++ [x] := by
  rcases List.eq_nil_or_concat c with rfl | ⟨d, x, rfl⟩
  · simp [charge] at h
  · exact ⟨d, x, by simp⟩

section
variable {L md n : Nat} {a : Segs} {g : Arr}

namespace Abs

theorem lt (h : Abs L md n a g) {k : Nat} {x : ObjId × Nat} (hx : x ∈ a k) : k < n := by
  rcases Nat.lt_or_ge k n with hk | hk
  · exact hk
  · rw [h.out k hk] at hx; cases hx

theorem nd (h : Abs L md n a g) (k : Nat) : (a k).ids.Nodup := by
  rcases Nat.lt_or_ge k n with hk | hk
  · obtain ⟨l, h1, h2⟩ := h.rep k hk
    rw [h2, chg_ids]; exact h1.nodup
  · rw [h.out k hk]; exact List.nodup_nil

theorem same (h : Abs L md n a g) {i j : Nat} {x y : ObjId × Nat} (hx : x ∈ a i) (hy : y ∈ a j) (e : x.1 = y.1) : i = j ∧ x = y := by
  have := h.uniq i j x y hx hy e
  subst this
  exact ⟨rfl, List.inj_on_of_nodup_map (h.nd i) hx hy e⟩

theorem occ (h : Abs L md n a g) {k : Nat} (hk : k < n) : (g k).base.occ = (charge 0 (a k) : Nat) := by
  obtain ⟨l, h1, h2⟩ := h.rep k hk
  rw [h2, chg_charge]; exact h1.occ

theorem nObj (h : Abs L md n a g) {k : Nat} (hk : k < n) : (g k).base.nObj = ((a k).length : Nat) := by
  obtain ⟨l, h1, h2⟩ := h.rep k hk
  rw [h2, chg, List.length_map]; exact h1.nObj

theorem len (h : Abs L md n a g) {k : Nat} (hk : k < n) : (g k).q.length = (a k).length := by
  obtain ⟨l, h1, h2⟩ := h.rep k hk
  rw [h2, chg, List.length_map, h1.q, List.length_map]

theorem csz (h : Abs L md n a g) {k : Nat} (hk : k < n) : (g k).base.cacheSize = L := by
  obtain ⟨l, h1, _⟩ := h.rep k hk
  exact h1.csz

theorem small (h : Abs L md n a g) {k : Nat} {x : ObjId × Nat} (hx : x ∈ a k) : ∃ m, x.2 = m + md ∧ x.2 < u32 := by
  obtain ⟨l, h1, h2⟩ := h.rep k (h.lt hx)
  rw [h2, chg, List.mem_map] at hx
  obtain ⟨o, ho, rfl⟩ := hx
  exact ⟨o.size, rfl, h1.small o ho⟩

theorem full (h : Abs L md n a g) {k : Nat} (hk : k < n) (size : Nat) :
    SLRUv0.full (g k) size md = decide (charge 0 (a k) + (size + md) > L) := by
  rw [SLRUv0.full, h.occ hk, h.csz hk]
  by_cases hc : charge 0 (a k) + (size + md) > L
  · rw [decide_eq_true hc, decide_eq_true]; omega
  · rw [decide_eq_false hc, decide_eq_false]; omega

theorem lookup (h : Abs L md n a g) {k : Nat} (hk : k < n) (id : ObjId) :
    ((g k).base.lookup id).isSome = decide (id ∈ (a k).ids) := by
  obtain ⟨l, h1, h2⟩ := h.rep k hk
  rw [h2, chg_ids]; exact h1.lookup_isSome id

/-- Segment `k` replaced by a list without new ids. -/
theorem replace (h : Abs L md n a g) {k : Nat} (hk : k < n) {q : QState Unit} {l : List (Obj Unit)} (hq : Rep L md q l)
    (hs : ∀ y ∈ chg md l, y ∈ a k) : Abs L md n (put a k (chg md l)) (upd g k q) := by
  have hsub : Sub (put a k (chg md l)) a := by
    intro j y hy
    by_cases e : j = k
    · subst e; rw [put_self] at hy; exact ⟨j, hs y hy⟩
    · rw [put_ne _ e] at hy; exact ⟨j, hy⟩
  have hat : ∀ j y, y ∈ put a k (chg md l) j → y ∈ a j := by
    intro j y hy
    by_cases e : j = k
    · subst e; rw [put_self] at hy; exact hs y hy
    · rw [put_ne _ e] at hy; exact hy
  refine ⟨?_, ?_, ?_⟩
  · intro j hj
    by_cases e : j = k
    · subst e; rw [upd_self, put_self]; exact ⟨l, hq, rfl⟩
    · rw [upd_ne _ e, put_ne _ e]; exact h.rep j hj
  · intro j hj
    rw [put_ne _ (by omega)]; exact h.out j hj
  · intro i j x y hx hy e
    exact h.uniq i j x y (hat i x hx) (hat j y hy) e

theorem tail (h : Abs L md n a g) {k : Nat} {c : Contents} {x : ObjId × Nat} (hc : a k = c ++ [x]) :
    ∃ o q, (g k).tailObj = .ok o ∧ (g k).evictTail = .ok q ∧ o.id = x.1 ∧ o.size + md = x.2 ∧ o.size + md < u32 ∧ Abs L md n (put a k c) (upd g k q) := by
  have hk : k < n := h.lt (k := k) (x := x) (by rw [hc]; simp)
  obtain ⟨l, h1, h2⟩ := h.rep k hk
  have hl : ∃ l' o, l = l' ++ [o] := by
    rcases List.eq_nil_or_concat l with rfl | ⟨l', o, rfl⟩
    · rw [h2] at hc; simp [chg] at hc
    · exact ⟨l', o, by simp⟩
  obtain ⟨l', o, rfl⟩ := hl
  rw [h2] at hc
  simp only [chg, List.map_append, List.map_cons, List.map_nil] at hc
  obtain ⟨e1, e2⟩ := List.append_inj' hc rfl
  simp only [List.cons.injEq, and_true] at e2
  obtain ⟨q, g1, g2⟩ := h1.evictTail rfl
  refine ⟨o, q, h1.tailObj rfl, g1, by rw [← e2], by rw [← e2], h1.small o (by simp), ?_⟩
  have := h.replace hk g2 (by
    intro y hy
    rw [h2]; simp only [chg, List.map_append]; exact List.mem_append_left _ hy)
  rw [show chg md l' = c from e1] at this
  exact this

theorem insert (h : Abs L md n a g) {k : Nat} (hk : k < n) {r : Req} (hn : Absent r.id a) (hsz : SizeOk md r) :
    ∃ q, (g k).insert () r = .ok q ∧ Abs L md n (put a k ((r.id, r.size % u32 + md) :: a k)) (upd g k q) := by
  obtain ⟨l, h1, h2⟩ := h.rep k hk
  have hnl : r.id ∉ l.map (·.id) := by
    rw [← chg_ids md, ← h2]
    intro hm
    obtain ⟨y, hy, e⟩ := List.mem_map.1 hm
    exact hn k y hy e
  obtain ⟨q, g1, g2⟩ := h1.insert () r hnl hsz
  refine ⟨q, g1, ?_, ?_, ?_⟩
  · intro j hj
    by_cases e : j = k
    · subst e; rw [upd_self, put_self]; exact ⟨_, g2, by rw [h2]; rfl⟩
    · rw [upd_ne _ e, put_ne _ e]; exact h.rep j hj
  · intro j hj
    rw [put_ne _ (by omega)]; exact h.out j hj
  · have hat : ∀ j y, y ∈ put a k ((r.id, r.size % u32 + md) :: a k) j → (y ∈ a j) ∨ (j = k ∧ y.1 = r.id) := by
      intro j y hy
      by_cases e : j = k
      · subst e; rw [put_self] at hy
        rcases List.mem_cons.1 hy with rfl | hy
        · exact .inr ⟨rfl, rfl⟩
        · exact .inl hy
      · rw [put_ne _ e] at hy; exact .inl hy
    intro i j x y hx hy e
    rcases hat i x hx with hx' | ⟨ei, hx'⟩ <;> rcases hat j y hy with hy' | ⟨ej, hy'⟩
    · exact h.uniq i j x y hx' hy' e
    · exact absurd (e.trans hy') (hn i x hx')
    · exact absurd (e.symm.trans hx') (hn j y hy')
    · rw [ei, ej]

theorem remove (h : Abs L md n a g) {k : Nat} {x : ObjId × Nat} (hx : x ∈ a k) :
    ∃ q, (g k).remove x.1 = .ok (true, q) ∧ Abs L md n (put a k (without x.1 (a k))) (upd g k q) := by
  have hk := h.lt hx
  obtain ⟨l, h1, h2⟩ := h.rep k hk
  have hm : x.1 ∈ l.map (·.id) := by rw [← chg_ids md, ← h2]; exact List.mem_map_of_mem hx
  obtain ⟨q, g1, g2⟩ := h1.remove_hit hm
  refine ⟨q, g1, ?_⟩
  have := h.replace hk g2 (by
    intro y hy
    rw [chg_del, ← h2] at hy; exact List.mem_of_mem_filter hy)
  rwa [chg_del, ← h2] at this

theorem remove_miss (h : Abs L md n a g) {k : Nat} (hk : k < n) {id : ObjId} (hm : id ∉ (a k).ids) : (g k).remove id = .ok (false, g k) := by
  obtain ⟨l, h1, h2⟩ := h.rep k hk
  rw [h2, chg_ids] at hm
  exact h1.remove_miss hm

theorem absent_without (h : Abs L md n a g) {k : Nat} {x : ObjId × Nat} (hx : x ∈ a k) : Absent x.1 (put a k (without x.1 (a k))) := by
  intro i y hy e
  by_cases ei : i = k
  · subst ei; rw [put_self, without, List.mem_filter] at hy
    have := hy.2
    simp [e] at this
  · rw [put_ne _ ei] at hy
    exact ei (h.uniq i k y x hy hx e)

theorem absent_tail (h : Abs L md n a g) {k : Nat} {c : Contents} {x : ObjId × Nat} (hc : a k = c ++ [x]) : Absent x.1 (put a k c) := by
  intro i y hy e
  have hx : x ∈ a k := by rw [hc]; simp
  by_cases ei : i = k
  · subst ei; rw [put_self] at hy
    have := h.nd i
    rw [hc, Contents.ids, List.map_append, List.nodup_append] at this
    exact this.2.2 y.1 (List.mem_map_of_mem hy) x.1 (by simp) e
  · rw [put_ne _ ei] at hy
    exact ei (h.uniq i k y x hy hx e)

end Abs

theorem sub_put {k : Nat} {c : Contents} (hc : ∀ y ∈ c, y ∈ a k) : Sub (put a k c) a := by
  intro j y hy
  by_cases e : j = k
  · subst e; rw [put_self] at hy; exact ⟨j, hc y hy⟩
  · rw [put_ne _ e] at hy; exact ⟨j, hy⟩

/-- Segment `k` gives up its oldest object `x`, keeping `c`. -/
def down (L : Nat) : Nat → Segs → Contents → ObjId × Nat → Segs
  | 0, a, c, _ => put a 0 c
  | k + 1, a, c, x => settle (fun _ => L) k (put (put a (k + 1) c) k (x :: a k))

theorem down_self (k : Nat) (a : Segs) (c : Contents) (x : ObjId × Nat) : down L k a c x k = c := by
  cases k with
  | zero => rw [down, put_self]
  | succ k => rw [down, settle_above (by omega), put_ne _ (by omega), put_self]

/-- Making room for `x` by one object does not change what settling leads to. -/
theorem settle_down {k : Nat} {c : Contents} {x y : ObjId × Nat} (hc : a k = c ++ [y]) (hf : L < charge 0 (a k) + x.2) :
    settle (fun _ => L) k (put (down L k a c y) k (x :: down L k a c y k)) = settle (fun _ => L) k (put a k (x :: a k)) := by
  rw [down_self]
  cases k with
  | zero =>
    have := settle_step0 (lim := fun _ => L) (a := put a 0 (x :: a 0)) (c := x :: c) (x := y) (by rw [put_self, hc]; rfl)
      (by rw [put_self]; simp only [charge]; omega)
    rw [put_put] at this
    rw [down, put_put]; exact this
  | succ j =>
    have := settle_step (lim := fun _ => L) (k := j) (a := put a (j + 1) (x :: a (j + 1))) (c := x :: c) (x := y) (by rw [put_self, hc]; rfl)
      (by rw [put_self]; simp only [charge]; omega)
    rw [put_put, put_ne _ (show j ≠ j + 1 by omega), settle_push] at this
    rw [down, settle_push, put_put]; exact this

theorem sub_cons {k i : Nat} {b : Segs} {x : ObjId × Nat} (hs : Sub b a) (hx : x ∈ a i) : Sub (put b k (x :: b k)) a := by
  intro j y hy
  by_cases e : j = k
  · subst e; rw [put_self] at hy
    rcases List.mem_cons.1 hy with rfl | hy
    · exact ⟨i, hx⟩
    · exact hs j y hy
  · rw [put_ne _ e] at hy; exact hs j y hy

/-- No segment holds more than `L` bytes. -/
def Within (L : Nat) (a : Segs) : Prop := ∀ j, charge 0 (a j) ≤ L

theorem within_settle {k : Nat} : ∀ {a : Segs}, (∀ j, j ≠ k → charge 0 (a j) ≤ L) → Within L (settle (fun _ => L) k a) := by
  induction k with
  | zero =>
    intro a h j
    rw [settle]
    by_cases e : j = 0
    · subst e; rw [put_self]; exact keep_charge _ _
    · rw [put_ne _ e]; exact h j e
  | succ k ih =>
    intro a h
    rw [settle]
    have h1 : ∀ j, charge 0 (put a (k + 1) (keep L (a (k + 1))) j) ≤ L := by
      intro j
      by_cases e : j = k + 1
      · subst e; rw [put_self]; exact keep_charge _ _
      · rw [put_ne _ e]; exact h j e
    split
    · exact h1
    · apply ih
      intro j e
      rw [put_ne _ e]; exact h1 j

theorem within_put {k : Nat} {c : Contents} (h : Within L a) (hc : charge 0 c ≤ L) : Within L (put a k c) := by
  intro j
  by_cases e : j = k
  · subst e; rw [put_self]; exact hc
  · rw [put_ne _ e]; exact h j

theorem charge_append (c d : Contents) : charge 0 (c ++ d) = charge 0 c + charge 0 d := by
  induction c with
  | nil => simp [charge]
  | cons x c ih => simp only [List.cons_append, charge, ih]; omega

theorem charge_mem {c : Contents} {x : ObjId × Nat} (h : x ∈ c) : x.2 ≤ charge 0 c := by
  induction c with
  | nil => cases h
  | cons y c ih =>
    simp only [charge]
    rcases List.mem_cons.1 h with rfl | h
    · omega
    · have := ih h; omega

theorem Within.down (h : Within L a) {k : Nat} {c : Contents} {y : ObjId × Nat} (hc : a k = c ++ [y]) : Within L (down L k a c y) := by
  have h1 : charge 0 c ≤ L := by
    have := h k
    rw [hc, charge_append] at this; omega
  cases k with
  | zero => exact within_put h h1
  | succ k =>
    apply within_settle
    intro j e
    rw [put_ne _ e]
    exact within_put h h1 j

/-- What a cooling function must do to segment `k`. -/
def Cools (L md n k : Nat) (f : Arr → Res Arr) : Prop :=
  ∀ {a : Segs} {g : Arr} {c : Contents} {y : ObjId × Nat}, Abs L md n a g → Within L a → a k = c ++ [y] →
    ∃ g', f g = .ok g' ∧ Abs L md n (down L k a c y) g' ∧ Sub (down L k a c y) a

theorem makeRoom_spec {k : Nat} {f : Arr → Res Arr} (hf : Cools L md n k f) {x : ObjId × Nat} {size : Nat} (hx : x.2 = size + md) (hL : x.2 ≤ L) (hk : k < n) :
    ∀ (m : Nat) {b : Segs} {g : Arr}, Abs L md n b g → Within L b → (b k).length ≤ m →
      ∃ g' b', SLRUv0.makeRoom f k size md m g = .ok g' ∧ Abs L md n b' g' ∧ Sub b' b ∧
        put b' k (x :: b' k) = settle (fun _ => L) k (put b k (x :: b k)) := by
  intro m
  induction m with
  | zero =>
    intro b g h hw hm
    have h0 : b k = [] := List.eq_nil_of_length_eq_zero (by omega)
    have hfull : ¬ (charge 0 (b k) + (size + md) > L) := by rw [h0]; simp only [charge]; omega
    refine ⟨g, b, ?_, h, Sub.refl b, ?_⟩
    · unfold SLRUv0.makeRoom
      rw [h.full hk, decide_eq_false hfull]; rfl
    · rw [settle_of_le]
      rw [put_self]; simp only [charge]; omega
  | succ m ih =>
    intro b g h hw hm
    unfold SLRUv0.makeRoom
    rw [h.full hk]
    by_cases hfull : charge 0 (b k) + (size + md) > L
    · obtain ⟨c, y, hc⟩ := last_of_pos (c := b k) (by omega)
      obtain ⟨g1, k1, k2, k3⟩ := hf h hw hc
      obtain ⟨g', b', k4, k5, k6, k7⟩ := ih k2 (hw.down hc) (by
        rw [down_self]
        rw [hc, List.length_append] at hm
        simp only [List.length_cons, List.length_nil] at hm; omega)
      refine ⟨g', b', ?_, k5, k6.trans k3, ?_⟩
      · simp only [decide_eq_true hfull, if_true, k1, Res.bind_ok]; exact k4
      · rw [k7]; exact settle_down hc (by omega)
    · refine ⟨g, b, ?_, h, Sub.refl b, ?_⟩
      · simp only [decide_eq_false hfull, Bool.false_eq_true, if_false]
      · rw [settle_of_le]
        rw [put_self]; simp only [charge]; omega

theorem cool_spec (L md n : Nat) : ∀ k, k < n → Cools L md n k (SLRUv0.cool md k) := by
  intro k
  induction k with
  | zero =>
    intro hk a g c y h hw hc
    obtain ⟨o, q, h1, h2, _, _, _, h3⟩ := h.tail hc
    refine ⟨upd g 0 q, ?_, h3, ?_⟩
    · rw [SLRUv0.cool, h2, Res.bind_ok]
    · exact sub_put (by intro z hz; rw [hc]; exact List.mem_append_left _ hz)
  | succ k ih =>
    intro hk a g c y h hw hc
    obtain ⟨o, q, h1, h2, e1, e2, e3, h3⟩ := h.tail hc
    have hwy : y.2 ≤ L := by
      have := charge_mem (c := a (k + 1)) (x := y) (by rw [hc]; simp)
      exact Nat.le_trans this (hw _)
    have hcL : charge 0 c ≤ L := by
      have := hw (k + 1)
      rw [hc, charge_append] at this; omega
    have hnk : k ≠ k + 1 := by omega
    obtain ⟨g1, b1, k1, k2, k3, k4⟩ := makeRoom_spec (ih (by omega)) (x := y) (size := o.size) e2.symm hwy (by omega)
      (g k).q.length h3 (within_put hw hcL) (by rw [put_ne _ hnk, h.len (by omega)]; exact Nat.le_refl _)
    have hab : Absent o.toReq.id b1 := by
      have := (h.absent_tail hc).sub k3
      rw [← e1] at this; exact this
    have hu : o.size < u32 := by unfold u32 at *; omega
    have hmod : o.toReq.size % u32 = o.size := Nat.mod_eq_of_lt hu
    obtain ⟨q', k5, k6⟩ := k2.insert (k := k) (by omega) hab (by rw [SizeOk, hmod]; exact e3)
    have hy : (o.toReq.id, o.toReq.size % u32 + md) = y := by
      rw [hmod]; exact Prod.ext e1 e2
    rw [hy, k4, put_ne _ hnk] at k6
    refine ⟨upd g1 k q', ?_, k6, ?_⟩
    · rw [SLRUv0.cool, h1, Res.bind_ok, h2, Res.bind_ok, k1, Res.bind_ok, k5, Res.bind_ok]
    · have hsub : Sub (put b1 k (y :: b1 k)) a := by
        refine sub_cons (i := k + 1) (k3.trans (sub_put ?_)) (by rw [hc]; simp)
        intro z hz; rw [hc]; exact List.mem_append_left _ hz
      rw [k4, put_ne _ hnk] at hsub
      exact hsub

end
end Verif.SegCaches
