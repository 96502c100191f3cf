import Verif.Prefetch.PG
import Verif.Proof.HeapShape
import Verif.Proof.Prefetch
/-!
# The PG prefetcher
-/

namespace Verif.Prefetch.PG
open Verif Verif.Spec Verif.Spec.Prefetch Verif.PQueue

/-! ## Windows -/

theorem windows_short {n : Nat} : ∀ {l : List ObjId}, l.length ≤ n → windows n l = []
  | [], _ => rfl
  | a :: l, h => by
    rw [windows, if_neg (by simp at h; omega)]

theorem windows_snoc {n : Nat} (hn : 1 ≤ n) (x : ObjId) : ∀ (l : List ObjId),
    windows n (l ++ [x]) = windows n l ++ (if n ≤ l.length then [((l[l.length - n]?).getD 0, (l ++ [x]).drop (l.length + 1 - n))] else [])
  | [] => by
    rw [List.nil_append, windows_short (by simpa using hn), if_neg (by simp; omega)]; rfl
  | a :: l => by
    rw [List.cons_append, windows, windows_snoc hn x l, windows]
    simp only [List.length_append, List.length_cons, List.length_nil, Nat.zero_add]
    by_cases h1 : n ≤ l.length
    · have e1 : l.length + 1 - n = (l.length - n) + 1 := by omega
      have e2 : l.length + 1 + 1 - n = (l.length + 1 - n) + 1 := by omega
      rw [if_pos (by omega), if_pos h1, if_pos h1, if_pos (by omega), e1, e2, List.getElem?_cons_succ, List.drop_succ_cons, e1, List.take_append_of_le_length h1]
      rfl
    · by_cases h2 : n ≤ l.length + 1
      · have e : n = l.length + 1 := by omega
        subst e
        rw [if_pos (by omega), if_neg h1, if_neg h1, if_pos (by omega), windows_short (by omega)]
        simp only [List.nil_append, Nat.sub_self, List.getElem?_cons_zero, Option.getD_some, Nat.add_sub_cancel_left, List.drop_succ_cons, List.drop_zero]
        rw [List.take_of_length_le (by simp)]
      · rw [if_neg h2, if_neg h1, if_neg h2]; rfl

theorem followed_snoc {n : Nat} (hn : 1 ≤ n) (l : List ObjId) (x a b : ObjId) :
    followed n (l ++ [x]) a b = followed n l a b + (if n ≤ l.length ∧ (l[l.length - n]?).getD 0 = a then ((l ++ [x]).drop (l.length + 1 - n)).count b else 0) := by
  rw [followed, windows_snoc hn, List.filter_append, List.map_append, List.sum_append, followed]
  congr 1
  by_cases h : n ≤ l.length
  · rw [if_pos h]
    by_cases h2 : (l[l.length - n]?).getD 0 = a
    · rw [if_pos ⟨h, h2⟩]; simp [h2]
    · rw [if_neg (fun hh => h2 hh.2)]; simp [h2]
  · rw [if_neg h, if_neg (fun hh => h hh.1)]; rfl

theorem following_snoc {n : Nat} (hn : 1 ≤ n) (l : List ObjId) (x a : ObjId) :
    following n (l ++ [x]) a = following n l a + (if n ≤ l.length ∧ (l[l.length - n]?).getD 0 = a then n else 0) := by
  rw [following, windows_snoc hn, List.filter_append, List.map_append, List.sum_append, following]
  congr 1
  by_cases h : n ≤ l.length
  · rw [if_pos h]
    by_cases h2 : (l[l.length - n]?).getD 0 = a
    · rw [if_pos ⟨h, h2⟩]
      simp [h2]; omega
    · rw [if_neg (fun hh => h2 hh.2)]; simp [h2]
  · rw [if_neg h, if_neg (fun hh => h hh.1)]; rfl

theorem windows_mem {n : Nat} : ∀ {l : List ObjId} {w : ObjId × List ObjId}, w ∈ windows n l → ∀ x ∈ w.2, x ∈ l
  | [], w, h, x, hx => by simp [windows] at h
  | a :: l, w, h, x, hx => by
    rw [windows] at h
    split at h
    · rcases List.mem_cons.1 h with rfl | h
      · exact List.mem_cons_of_mem _ (List.mem_of_mem_take hx)
      · exact List.mem_cons_of_mem _ (windows_mem h x hx)
    · cases h

theorem sum_zero : ∀ {l : List Nat}, (∀ x ∈ l, x = 0) → l.sum = 0
  | [], _ => rfl
  | a :: l, h => by rw [List.sum_cons, h a List.mem_cons_self, sum_zero (fun x hx => h x (List.mem_cons_of_mem _ hx))]

theorem followed_mem {n : Nat} {l : List ObjId} {a b : ObjId} (h : 1 ≤ followed n l a b) : b ∈ l := by
  by_contra hb
  have : followed n l a b = 0 := by
    refine sum_zero (fun k hk => ?_)
    obtain ⟨w, hw, rfl⟩ := List.mem_map.1 hk
    exact List.count_eq_zero.2 (fun hh => hb (windows_mem (List.mem_of_mem_filter hw) b hh))
  omega

/-! ## The ring -/

theorem mod_perm {n : Nat} (hn : 1 ≤ n) (p : Nat) : ((List.range n).map (fun i => (p + i) % n)).Perm (List.range n) := by
  have hnd : ((List.range n).map (fun i => (p + i) % n)).Nodup := by
    refine (List.nodup_map_iff_inj_on List.nodup_range).2 (fun i hi j hj h => ?_)
    have : Nat.ModEq n i j := Nat.ModEq.add_left_cancel' p h
    exact Nat.ModEq.eq_of_lt_of_lt this (List.mem_range.1 hi) (List.mem_range.1 hj)
  refine (hnd.subperm (fun x hx => ?_)).perm_of_length_le (by simp)
  obtain ⟨i, _, rfl⟩ := List.mem_map.1 hx
  exact List.mem_range.2 (Nat.mod_lt _ hn)

/-- The array holds the last `n` ids, 0 where there were none. -/
def Ring (n : Nat) (l : List ObjId) (past : Nat → ObjId) (ptr : Nat) : Prop := ∀ i < n, past ((ptr + i) % n) = (l.reverse[n - 1 - i]?).getD 0

theorem Ring.next {n : Nat} {l : List ObjId} {past : Nat → ObjId} {ptr : Nat} (hn : 1 ≤ n) (hp : ptr < n) (h : Ring n l past ptr) (x : ObjId) :
    Ring n (l ++ [x]) (fun j => if j = ptr then x else past j) ((ptr + 1) % n) := by
  intro i hi
  have e1 : ((ptr + 1) % n + i) % n = (ptr + (1 + i)) % n := by rw [Nat.mod_add_mod, Nat.add_assoc]
  rw [e1, List.reverse_append]
  by_cases h1 : i = n - 1
  · subst h1
    have e2 : (ptr + (1 + (n - 1))) % n = ptr := by
      rw [show ptr + (1 + (n - 1)) = ptr + n by omega, Nat.add_mod_right, Nat.mod_eq_of_lt hp]
    rw [e2]
    simp
  · have e2 : (ptr + (1 + i)) % n ≠ ptr := by
      intro hh
      have e : (ptr + (1 + i)) % n = (ptr + 0) % n := by rw [hh, Nat.add_zero, Nat.mod_eq_of_lt hp]
      have : Nat.ModEq n (1 + i) 0 := Nat.ModEq.add_left_cancel' ptr e
      have := Nat.ModEq.eq_of_lt_of_lt this (by omega) (by omega)
      omega
    simp only [if_neg e2]
    rw [h (1 + i) (by omega), show n - 1 - i = (n - 1 - (1 + i)) + 1 by omega]
    simp

theorem Ring.window {n : Nat} {l : List ObjId} {past : Nat → ObjId} {ptr : Nat} (hn : 1 ≤ n) (h : Ring n l past ptr) (hl : n ≤ l.length) :
    ((List.range n).map past).Perm (l.drop (l.length - n)) := by
  have e : (List.range n).map (fun i => past ((ptr + i) % n)) = l.drop (l.length - n) := by
    apply List.ext_getElem
    · simp; omega
    · intro i h1 h2
      have hi : i < n := by simpa using h1
      rw [List.getElem_map, List.getElem_range, h i hi, List.getElem_drop, List.getElem?_reverse (by omega), List.getElem?_eq_getElem (by omega), Option.getD_some]
      congr 1; omega
  rw [← e]
  have := (mod_perm hn ptr).map past
  rw [List.map_map] at this
  exact this.symm

/-! ## The arcs of a node -/

/-- the count of an arc -/
def cnt (g : GNode) (x : Nat) : Nat := if x ∈ g.known then g.pq.pri x else 0

theorem arcs_spec (stop : Bool) (past : Nat → ObjId) : ∀ (m i : Nat) (g : GNode) (mt : Nat) {M : List Nat}, Shape g.pq M g.known →
    ∃ g' mt' b M', arcs stop past m i g mt = .ok (g', mt', b) ∧ Shape g'.pq M' g'.known ∧ mt ≤ mt' ∧ mt' ≤ mt + 32 * m ∧ (b = true → stop = true) ∧
      (∀ x ∈ g'.known, x ∈ g.known ∨ x ∈ (List.range' i m).map (fun j => key (past j))) ∧
      (stop = false → (∀ j, i ≤ j → j < i + m → past j ≠ 0) →
        g'.total = g.total + m ∧ ∀ x, cnt g' x = cnt g x + ((List.range' i m).map (fun j => key (past j))).count x)
  | 0, i, g, mt, M, h => ⟨g, mt, false, M, rfl, h, Nat.le_refl _, Nat.le_refl _, by simp, fun x hx => .inl hx, fun _ _ => ⟨rfl, by simp⟩⟩
  | m + 1, i, g, mt, M, h => by
    rw [arcs]
    by_cases h0 : past i = 0
    · simp only [if_pos h0]
      exact ⟨_, mt, false, M, rfl, h, Nat.le_refl _, by omega, by simp, fun x hx => .inl hx, fun _ hz => absurd h0 (hz i (Nat.le_refl _) (by omega))⟩
    · simp only [if_neg h0]
      by_cases hk : key (past i) ∈ g.known
      · simp only [if_pos hk]
        generalize hkk : key (past i) = k at hk ⊢
        obtain ⟨q', r, hs, hp⟩ := percolateDown_known (h.setPri k (g.pq.pri k + 1)) hk
        have hcp : changePriority (setPri g.pq k (g.pq.pri k + 1)) (g.pq.pri k + 1) k = .ok q' := by
          rw [changePriority]
          have e1 : (setPri g.pq k (g.pq.pri k + 1)).pri k = g.pq.pri k + 1 := by simp [setPri]
          have e2 : setPri (setPri g.pq k (g.pq.pri k + 1)) k (g.pq.pri k + 1) = setPri g.pq k (g.pq.pri k + 1) := by
            simp only [setPri, Q.mk.injEq, true_and, and_true]
            funext y; split <;> rfl
          simp only [e1, e2, if_neg (Nat.lt_irrefl _)]
          exact r
        obtain ⟨g', mt', b, M', a1, a2, a3, a4, a5, a6, a7⟩ := arcs_spec stop past m (i + 1) ({ g with total := g.total + 1, pq := q' } : GNode) mt (M := M) hs
        refine ⟨g', mt', b, M', ?_, a2, a3, by omega, a5, fun x hx => ?_, fun hst hz => ?_⟩
        · rw [hcp]; exact a1
        · rcases a6 x hx with hh | hh
          · exact .inl hh
          · exact .inr (by rw [List.range'_succ, List.map_cons]; exact List.mem_cons_of_mem _ hh)
        · obtain ⟨b1, b2⟩ := a7 hst (fun j h1 h2 => hz j (by omega) (by omega))
          refine ⟨by rw [b1]; show g.total + 1 + m = _; omega, fun x => ?_⟩
          rw [b2, List.range'_succ, List.map_cons, List.count_cons, hkk]
          have : cnt ({ g with total := g.total + 1, pq := q' } : GNode) x = cnt g x + (if k == x then 1 else 0) := by
            simp only [cnt, hp, setPri]
            by_cases hx : x = k
            · subst hx; simp [hk]
            · simp [hx, Ne.symm hx]
          rw [this]; omega
      · simp only [if_neg hk]
        cases hst : stop with
        | true =>
          simp only [if_true]
          exact ⟨_, mt, true, M, rfl, h, Nat.le_refl _, by omega, by simp, fun x hx => .inl hx, fun h => absurd h (by simp)⟩
        | false =>
          simp only [Bool.false_eq_true, if_false]
          generalize hkk : key (past i) = k at hk ⊢
          obtain ⟨q', r, hs, hp⟩ := insert_shape (K' := k :: g.known) (h.setPri k 1) (x := k) (fun hh => hk (h.sub k hh)) (fun y => by simp)
          obtain ⟨g', mt', b, M', a1, a2, a3, a4, a5, a6, a7⟩ :=
            arcs_spec false past m (i + 1) ({ g with total := g.total + 1, pq := q', known := k :: g.known } : GNode) (mt + 32) (M := k :: M) hs
          refine ⟨g', mt', b, M', ?_, a2, by omega, by omega, fun h => absurd (a5 h) (by simp), fun x hx => ?_, fun _ hz => ?_⟩
          · rw [r]; exact a1
          · rw [List.range'_succ, List.map_cons, hkk]
            rcases a6 x hx with hh | hh
            · rcases List.mem_cons.1 hh with rfl | hh
              · exact .inr List.mem_cons_self
              · exact .inl hh
            · exact .inr (List.mem_cons_of_mem _ hh)
          · obtain ⟨b1, b2⟩ := a7 rfl (fun j h1 h2 => hz j (by omega) (by omega))
            refine ⟨by rw [b1]; show g.total + 1 + m = _; omega, fun x => ?_⟩
            rw [b2, List.range'_succ, List.map_cons, List.count_cons, hkk]
            have : cnt ({ g with total := g.total + 1, pq := q', known := k :: g.known } : GNode) x = cnt g x + (if k == x then 1 else 0) := by
              simp only [cnt, hp, setPri]
              by_cases hx : x = k
              · subst hx; simp [hk]
              · simp [hx, Ne.symm hx]
            rw [this]; omega

/-! ## The whole state -/

/-- requests with ids and sizes that fit into a `gint`, for objects that fit into the cache -/
def Proper (cs md : Nat) (r : Req) : Prop := 0 < r.id ∧ r.id < 2147483648 ∧ r.size < 2147483648 ∧ r.size + md ≤ cs

theorem key_eq {id : Nat} (h : id < 2147483648) : key id = id := Nat.mod_eq_of_lt (by have : u32 = 4294967296 := rfl; omega)
theorem unkey_eq {k : Nat} (h : k < 2147483648) : unkey k = k := if_pos h

structure Rel (n maxMeta : Nat) (over : Nat → Nat → Bool) (H : List Req) (f : State) : Prop where
  lk : f.look = n
  mm : f.maxMeta = maxMeta
  ov : f.over = over
  ring : Ring n (H.map Req.id) f.past f.ptr
  ptr : f.ptr < n
  sizes : ∀ x, f.sizes x = lastSize H x
  meta1 : f.metaSize ≤ 32 * (1 + n) * H.length
  meta2 : f.stop = true → maxMeta ≤ f.metaSize
  node : ∀ k g, f.graph k = some g → ∃ M, Shape g.pq M g.known
  arc : ∀ k g, k ≠ 0 → f.graph k = some g → ∀ x ∈ g.known, 1 ≤ followed n (H.map Req.id) k x
  exact' : f.stop = false → ∀ k g, k ≠ 0 → f.graph k = some g → g.total = following n (H.map Req.id) k ∧ ∀ x, cnt g x = followed n (H.map Req.id) k x
  fresh : f.stop = false → ∀ k, k ≠ 0 → f.graph k = none → following n (H.map Req.id) k = 0 ∧ ∀ x, followed n (H.map Req.id) k x = 0

theorem rel_create {n : Nat} (hn : 1 ≤ n) (maxMeta : Nat) (over : Nat → Nat → Bool) (junk : List Bool) : Rel n maxMeta over [] (create n maxMeta over junk) :=
  ⟨rfl, rfl, rfl, fun i _ => by simp [create], hn, fun x => rfl, Nat.le_refl _, fun h => absurd h (by simp [create]), fun k g h => absurd h (by simp [create]),
    fun k g _ h => absurd h (by simp [create]), fun _ k g _ h => absurd h (by simp [create]), fun _ k _ _ => ⟨rfl, fun _ => rfl⟩⟩

theorem lastSize_snoc (H : List Req) (r : Req) (x : ObjId) : lastSize (H ++ [r]) x = if x = r.id then some r.size else lastSize H x := by
  rw [lastSize, List.reverse_append]
  by_cases h : x = r.id
  · simp [h]
  · simp [h, Ne.symm h, lastSize]

theorem finish_spec {s : State} {k : Nat} {g : GNode} {mt : Nat} {M : List Nat} (h : Shape g.pq M g.known) :
    ∃ g' mt' b M', finish s k g mt = .ok { s with graph := setNode s.graph k g', metaSize := mt', stop := if b then s.stop else s.stop || decide (s.maxMeta ≤ mt') } ∧
      Shape g'.pq M' g'.known ∧ mt ≤ mt' ∧ mt' ≤ mt + 32 * s.look ∧ (b = true → s.stop = true) ∧
      (∀ x ∈ g'.known, x ∈ g.known ∨ x ∈ (List.range s.look).map (fun j => key (s.past j))) ∧
      (s.stop = false → (∀ j < s.look, s.past j ≠ 0) →
        g'.total = g.total + s.look ∧ ∀ x, cnt g' x = cnt g x + ((List.range s.look).map (fun j => key (s.past j))).count x) := by
  obtain ⟨g', mt', b, M', a1, a2, a3, a4, a5, a6, a7⟩ := arcs_spec s.stop s.past s.look 0 g mt h
  refine ⟨g', mt', b, M', ?_, a2, a3, a4, a5, ?_, fun h1 h2 => ?_⟩
  · rw [finish, a1, Res.bind_ok]
  · rw [List.range_eq_range']; exact a6
  · have := a7 h1 (fun j _ hj => h2 j (by omega))
    rw [List.range_eq_range']; exact this

theorem handleFind_spec {n maxMeta : Nat} {over : Nat → Nat → Bool} {H : List Req} {f : State} (hn : 1 ≤ n) {cs md : Nat} (hH : ∀ q ∈ H, Proper cs md q)
    (h : Rel n maxMeta over H f) (r : Req) (hr : Proper cs md r) : ∃ f', handleFind f r = .ok f' ∧ Rel n maxMeta over (H ++ [r]) f' := by
  have hmap : (H ++ [r]).map Req.id = H.map Req.id ++ [r.id] := by simp
  have hlen : (H.map Req.id).length = H.length := by simp
  have hring := h.ring.next hn h.ptr r.id
  have hkr : key r.id = r.id := key_eq hr.2.1
  have hcur : f.past f.ptr = ((H.map Req.id).reverse[n - 1]?).getD 0 := by
    have := h.ring 0 hn
    rwa [Nat.add_zero, Nat.mod_eq_of_lt h.ptr] at this
  have hcur0 : f.past f.ptr = 0 ↔ ¬ n ≤ H.length := by
    rw [hcur]
    constructor
    · intro h0 hle
      rw [List.getElem?_eq_getElem (by simp; omega), Option.getD_some] at h0
      have : ((H.map Req.id).reverse)[n - 1]'(by simp; omega) ∈ (H.map Req.id).reverse := List.getElem_mem _
      rw [h0, List.mem_reverse] at this
      obtain ⟨q, hq, e⟩ := List.mem_map.1 this
      have := (hH q hq).1
      rw [e] at this
      exact absurd this (Nat.lt_irrefl 0)
    · intro hle
      rw [List.getElem?_eq_none (by simp; omega)]; rfl
  have hcurE : n ≤ H.length → f.past f.ptr = ((H.map Req.id)[(H.map Req.id).length - n]?).getD 0 := by
    intro hle
    rw [hcur, List.getElem?_reverse (by rw [hlen]; omega), hlen]
    congr 2; omega
  have hcurlt : f.past f.ptr < 2147483648 := by
    by_cases hle : n ≤ H.length
    · rw [hcurE hle, List.getElem?_eq_getElem (by rw [hlen]; omega), Option.getD_some]
      have : (H.map Req.id)[(H.map Req.id).length - n]'(by rw [hlen]; omega) ∈ H.map Req.id := List.getElem_mem _
      obtain ⟨q, hq, e⟩ := List.mem_map.1 this
      rw [← e]
      exact (hH q hq).2.1
    · rw [hcur0.2 hle]; exact Nat.succ_pos _
  have hkc : key (f.past f.ptr) = f.past f.ptr := key_eq hcurlt
  -- what the new arcs are
  set past' : Nat → ObjId := fun j => if j = f.ptr then r.id else f.past j with hpast'
  have hwin : n ≤ H.length → ((List.range n).map (fun j => key (past' j))).Perm ((H.map Req.id ++ [r.id]).drop ((H.map Req.id).length + 1 - n)) ∧ ∀ j < n, past' j ≠ 0 := by
    intro hle
    have hw := hring.window hn (by simp; omega)
    have hmem : ∀ j < n, past' j ∈ H.map Req.id ++ [r.id] := by
      intro j hj
      exact List.mem_of_mem_drop (hw.mem_iff.1 (List.mem_map_of_mem (List.mem_range.2 hj)))
    have hpr : ∀ j < n, 0 < past' j ∧ past' j < 2147483648 := by
      intro j hj
      have := hmem j hj
      rw [← hmap] at this
      obtain ⟨q, hq, e⟩ := List.mem_map.1 this
      rw [← e]
      rcases List.mem_append.1 hq with hq | hq
      · exact ⟨(hH q hq).1, (hH q hq).2.1⟩
      · rw [List.mem_singleton.1 hq]; exact ⟨hr.1, hr.2.1⟩
    refine ⟨?_, fun j hj => Nat.pos_iff_ne_zero.1 (hpr j hj).1⟩
    have e : (List.range n).map (fun j => key (past' j)) = (List.range n).map past' :=
      List.map_congr_left (fun j hj => key_eq (hpr j (List.mem_range.1 hj)).2)
    rw [e]
    simpa using hw
  -- the state before the arcs
  set s1 : State := { f with sizes := fun k => if k = key r.id then some r.size else f.sizes k, past := past', ptr := (f.ptr + 1) % f.look, junk := f.junk.tail } with hs1
  have hsz : ∀ x, s1.sizes x = lastSize (H ++ [r]) x := by
    intro x
    rw [lastSize_snoc]
    show (if x = key r.id then some r.size else f.sizes x) = _
    rw [hkr, h.sizes]
  have hm1 : s1.metaSize + 32 + 32 * s1.look ≤ 32 * (1 + n) * (H ++ [r]).length := by
    have := h.meta1
    have e : s1.look = n := h.lk
    have e2 : s1.metaSize = f.metaSize := rfl
    rw [e, e2, List.length_append, List.length_singleton, Nat.mul_add, Nat.mul_one]
    omega
  have hp1 : s1.ptr < n := by show (f.ptr + 1) % f.look < n; rw [h.lk]; exact Nat.mod_lt _ hn
  have hr1 : Ring n ((H ++ [r]).map Req.id) s1.past s1.ptr := by
    rw [hmap]; show Ring n _ past' ((f.ptr + 1) % f.look); rw [h.lk]; exact hring
  -- nothing is added to a node other than the current one
  have hoth : ∀ k, k ≠ 0 → k ≠ f.past f.ptr → following n ((H ++ [r]).map Req.id) k = following n (H.map Req.id) k ∧
      ∀ x, followed n ((H ++ [r]).map Req.id) k x = followed n (H.map Req.id) k x := by
    intro k hk0 hk
    have : ¬ (n ≤ (H.map Req.id).length ∧ ((H.map Req.id)[(H.map Req.id).length - n]?).getD 0 = k) := by
      rintro ⟨h1, h2⟩
      rw [hlen] at h1
      exact hk (by rw [hcurE h1, h2])
    rw [hmap]
    refine ⟨?_, fun x => ?_⟩
    · rw [following_snoc hn, if_neg this, Nat.add_zero]
    · rw [followed_snoc hn, if_neg this, Nat.add_zero]
  have hle' : ∀ k x, followed n (H.map Req.id) k x ≤ followed n ((H ++ [r]).map Req.id) k x := by
    intro k x
    rw [hmap, followed_snoc hn]; omega
  have hcurF : n ≤ H.length → following n ((H ++ [r]).map Req.id) (f.past f.ptr) = following n (H.map Req.id) (f.past f.ptr) + n ∧
      ∀ x, followed n ((H ++ [r]).map Req.id) (f.past f.ptr) x =
        followed n (H.map Req.id) (f.past f.ptr) x + ((List.range n).map (fun j => key (past' j))).count x := by
    intro hle
    rw [hmap]
    refine ⟨?_, fun x => ?_⟩
    · rw [following_snoc hn, if_pos ⟨by rw [hlen]; exact hle, (hcurE hle).symm⟩]
    · rw [followed_snoc hn, if_pos ⟨by rw [hlen]; exact hle, (hcurE hle).symm⟩, (hwin hle).1.count_eq]
  -- the three ends of the function
  have hskip : (f.past f.ptr = 0 ∨ f.stop = true) → Rel n maxMeta over (H ++ [r]) s1 := by
    intro hc
    refine ⟨h.lk, h.mm, h.ov, hr1, hp1, hsz, by omega, h.meta2, h.node, fun k g hk hg x hx => Nat.le_trans (h.arc k g hk hg x hx) (hle' k x), fun hst k g hk hg => ?_, fun hst k hk hg => ?_⟩
    · have hst' : f.stop = false := hst
      have : k ≠ f.past f.ptr := by
        rcases hc with hc | hc
        · rw [hc]; exact hk
        · rw [hst'] at hc; cases hc
      obtain ⟨e1, e2⟩ := hoth k hk this
      obtain ⟨e3, e4⟩ := h.exact' hst' k g hk hg
      exact ⟨by rw [e1, e3], fun x => by rw [e2, e4]⟩
    · have hst' : f.stop = false := hst
      have : k ≠ f.past f.ptr := by
        rcases hc with hc | hc
        · rw [hc]; exact hk
        · rw [hst'] at hc; cases hc
      obtain ⟨e1, e2⟩ := hoth k hk this
      obtain ⟨e3, e4⟩ := h.fresh hst' k hk hg
      exact ⟨by rw [e1, e3], fun x => by rw [e2, e4]⟩
  have hfin : ∀ (g : GNode) (mt : Nat) (M : List Nat), Shape g.pq M g.known → s1.metaSize ≤ mt → mt ≤ s1.metaSize + 32 →
      (f.past f.ptr ≠ 0 → ∀ x ∈ g.known, 1 ≤ followed n (H.map Req.id) (f.past f.ptr) x) →
      (f.stop = false → f.past f.ptr ≠ 0 → g.total = following n (H.map Req.id) (f.past f.ptr) ∧ ∀ x, cnt g x = followed n (H.map Req.id) (f.past f.ptr) x) →
      ∃ f', finish s1 (key (f.past f.ptr)) g mt = .ok f' ∧ Rel n maxMeta over (H ++ [r]) f' := by
    intro g mt M hg hmt1 hmt2 harc hex
    obtain ⟨g', mt', b, M', a1, a2, a3, a4, a5, a6, a7⟩ := finish_spec (s := s1) (k := key (f.past f.ptr)) (mt := mt) hg
    refine ⟨_, a1, ?_⟩
    have elook : s1.look = n := h.lk
    have emm : s1.maxMeta = maxMeta := h.mm
    rw [elook] at a6 a7 a4 hm1
    rw [hkc]
    have hstop : (if b then s1.stop else s1.stop || decide (s1.maxMeta ≤ mt')) = false → f.stop = false := by
      intro hh
      have e : s1.stop = f.stop := rfl
      rw [e] at hh
      cases hb : b with
      | true => rw [hb] at hh; simpa using hh
      | false =>
        rw [hb] at hh
        simp only [Bool.false_eq_true, if_false, Bool.or_eq_false_iff] at hh
        exact hh.1
    have hnode : ∀ k g1, setNode s1.graph (f.past f.ptr) g' k = some g1 → (k = f.past f.ptr ∧ g1 = g') ∨ (k ≠ f.past f.ptr ∧ f.graph k = some g1) := by
      intro k g1 hk
      unfold setNode at hk
      split at hk
      · rename_i e; exact .inl ⟨e, by injection hk with hk; exact hk.symm⟩
      · rename_i e; exact .inr ⟨e, hk⟩
    refine ⟨h.lk, h.mm, h.ov, hr1, hp1, hsz, ?_, ?_, ?_, ?_, ?_, ?_⟩
    · show mt' ≤ _
      omega
    · intro hh
      show maxMeta ≤ mt'
      have hh' : (if b then s1.stop else s1.stop || decide (s1.maxMeta ≤ mt')) = true := hh
      by_cases hst : s1.stop = true
      · have := h.meta2 hst
        have e2 : s1.metaSize = f.metaSize := rfl
        omega
      · cases hb : b with
        | true => rw [hb] at hh'; exact absurd (by simpa using hh') hst
        | false =>
          rw [hb] at hh'
          simp only [Bool.false_eq_true, if_false, Bool.or_eq_true, decide_eq_true_eq] at hh'
          rcases hh' with hh' | hh'
          · exact absurd hh' hst
          · rw [← emm]; exact hh'
    · intro k g1 hk
      rcases hnode k g1 hk with ⟨_, rfl⟩ | ⟨_, hk⟩
      · exact ⟨M', a2⟩
      · exact h.node k g1 hk
    · intro k g1 hk0 hk x hx
      rcases hnode k g1 hk with ⟨rfl, rfl⟩ | ⟨_, hk⟩
      · have hle : n ≤ H.length := by
          by_contra hc; exact hk0 (hcur0.2 hc)
        rcases a6 x hx with hh | hh
        · exact Nat.le_trans (harc hk0 x hh) (hle' _ x)
        · rw [(hcurF hle).2]
          exact Nat.le_trans (List.count_pos_iff.2 hh) (Nat.le_add_left _ _)
      · exact Nat.le_trans (h.arc k g1 hk0 hk x hx) (hle' k x)
    · intro hst k g1 hk0 hk
      have hst' := hstop hst
      rcases hnode k g1 hk with ⟨rfl, rfl⟩ | ⟨hne, hk⟩
      · have hle : n ≤ H.length := by
          by_contra hc; exact hk0 (hcur0.2 hc)
        obtain ⟨e1, e2⟩ := a7 hst' (hwin hle).2
        obtain ⟨e3, e4⟩ := hex hst' hk0
        obtain ⟨e5, e6⟩ := hcurF hle
        exact ⟨by rw [e1, e3, e5], fun x => by rw [e2, e4, e6]⟩
      · obtain ⟨e1, e2⟩ := hoth k hk0 hne
        obtain ⟨e3, e4⟩ := h.exact' hst' k g1 hk0 hk
        exact ⟨by rw [e1, e3], fun x => by rw [e2, e4]⟩
    · intro hst k hk0 hk
      have hst' := hstop hst
      have hk' : setNode s1.graph (f.past f.ptr) g' k = none := hk
      unfold setNode at hk'
      split at hk'
      · cases hk'
      · rename_i hne
        obtain ⟨e1, e2⟩ := hoth k hk0 hne
        obtain ⟨e3, e4⟩ := h.fresh hst' k hk0 hk'
        exact ⟨by rw [e1, e3], fun x => by rw [e2, e4]⟩
  -- the function
  have hdef : handleFind f r = (if f.past f.ptr = 0 ∧ f.junk.headD false = false then .ok s1
      else match (if f.past f.ptr = 0 then none else f.graph (key (f.past f.ptr))) with
        | some g => finish s1 (key (f.past f.ptr)) g s1.metaSize
        | none => if s1.stop then .ok s1 else finish s1 (key (f.past f.ptr)) newNode (s1.metaSize + 32)) := rfl
  rw [hdef]
  by_cases hc : f.past f.ptr = 0 ∧ f.junk.headD false = false
  · rw [if_pos hc]; exact ⟨s1, rfl, hskip (.inl hc.1)⟩
  · rw [if_neg hc]
    cases hg : (if f.past f.ptr = 0 then none else f.graph (key (f.past f.ptr))) with
    | some g =>
      simp only []
      have hne : f.past f.ptr ≠ 0 := by
        intro e; rw [if_pos e] at hg; cases hg
      rw [if_neg hne, hkc] at hg
      obtain ⟨M, hM⟩ := h.node _ g hg
      exact hfin g _ M hM (Nat.le_refl _) (by omega) (fun hne => h.arc _ g hne hg) (fun hst hne => h.exact' hst _ g hne hg)
    | none =>
      simp only []
      by_cases hst : s1.stop = true
      · rw [if_pos hst]; exact ⟨s1, rfl, hskip (.inr hst)⟩
      · rw [if_neg hst]
        refine hfin newNode _ [] (init_shape 2 (by omega) _ _) (by omega) (by omega) (fun _ x hx => by simp [newNode] at hx) (fun hs hne => ?_)
        rw [if_neg hne, hkc] at hg
        obtain ⟨e1, e2⟩ := h.fresh hs _ hne hg
        exact ⟨by rw [e1]; rfl, fun x => by rw [e2]; rfl⟩

/-! ## Prefetching -/

theorem popOver_spec (over : Nat → Nat → Bool) (total : Nat) {K : List Nat} : ∀ (m : Nat) (q : Q Nat) (acc : List Nat) {M : List Nat}, Shape q M K → M.length < m →
    acc.Nodup → (∀ x ∈ acc, x ∉ M) → ∃ l q' M', popOver over total m q acc = .ok (l ++ acc, q') ∧ Shape q' M' K ∧ q'.pri = q.pri ∧ (l ++ acc).Nodup ∧ (∀ x ∈ l ++ acc, x ∉ M') ∧
      ∀ x ∈ l, x ∈ M ∧ over (q.pri x) total = true
  | 0, q, acc, M, _, hm, _, _ => absurd hm (Nat.not_lt_zero _)
  | m + 1, q, acc, M, h, hm, hnd, hac => by
    rw [popOver]
    by_cases hM : M = []
    · subst hM
      have hs : q.size = 1 := by have := h.len; simp at this; omega
      refine ⟨[], q, [], ?_, h, rfl, hnd, by simp, by simp⟩
      simp only [pop, if_pos hs, Res.bind_ok]; rfl
    · obtain ⟨x, q1, r, hx, h1, hp⟩ := pop_shape h hM
      rw [r, Res.bind_ok]
      simp only []
      have hxe : x ∉ M.erase x := fun hh => (h.nd.mem_erase_iff.1 hh).1 rfl
      by_cases ho : over (q1.pri x) total = true
      · rw [if_pos ho]
        have hlt : (M.erase x).length < m := by
          rw [List.length_erase_of_mem hx]
          have := List.length_pos_of_mem hx
          omega
        obtain ⟨l, q', M', a1, a2, a3, a4, a5, a6⟩ := popOver_spec over total m q1 (x :: acc) h1 hlt
          (List.nodup_cons.2 ⟨fun hh => hac x hh hx, hnd⟩) (fun y hy => by
            rcases List.mem_cons.1 hy with rfl | hy
            · exact hxe
            · exact fun hh => hac y hy (List.mem_of_mem_erase hh))
        refine ⟨l ++ [x], q', M', ?_, a2, a3.trans hp, ?_, ?_, ?_⟩
        · rw [a1]; simp
        · simpa using a4
        · simpa using a5
        · intro y hy
          rcases List.mem_append.1 hy with hy | hy
          · have := a6 y hy
            rw [hp] at this
            exact ⟨List.mem_of_mem_erase this.1, this.2⟩
          · rw [List.mem_singleton.1 hy]
            rw [hp] at ho
            exact ⟨hx, ho⟩
      · rw [if_neg ho]
        exact ⟨[], q1, M.erase x, rfl, h1, hp, hnd, fun y hy hh => hac y hy (List.mem_of_mem_erase hh), by simp⟩

theorem putBack_spec {K : List Nat} : ∀ (l : List Nat) (q : Q Nat) {M : List Nat}, Shape q M K → l.Nodup → (∀ x ∈ l, x ∉ M ∧ x ∈ K) →
    ∃ q' M', putBack l q = .ok q' ∧ Shape q' M' K ∧ q'.pri = q.pri
  | [], q, M, h, _, _ => ⟨q, M, rfl, h, rfl⟩
  | x :: l, q, M, h, hnd, hl => by
    obtain ⟨hx, hnd⟩ := List.nodup_cons.1 hnd
    obtain ⟨h1, h2⟩ := hl x List.mem_cons_self
    obtain ⟨q1, r, hs, hp⟩ := insert_shape (K' := K) h h1 (fun y => ⟨fun hh => .inr hh, fun hh => by
      rcases hh with rfl | hh
      · exact h2
      · exact hh⟩)
    obtain ⟨q', M', a1, a2, a3⟩ := putBack_spec l q1 hs hnd (fun y hy => ⟨fun hh => by
      rcases List.mem_cons.1 hh with rfl | hh
      · exact hx hy
      · exact (hl y (List.mem_cons_of_mem _ hy)).1 hh, (hl y (List.mem_cons_of_mem _ hy)).2⟩)
    exact ⟨q', M', by rw [putBack, r, Res.bind_ok, a1], a2, a3.trans hp⟩

theorem prefetchList_spec {n maxMeta : Nat} {over : Nat → Nat → Bool} {H : List Req} {f : State} (h : Rel n maxMeta over H f) (r : Req) (h0 : 0 < r.id) (hr : r.id < 2147483648) :
    ∃ l f', prefetchList f r = .ok (l, f') ∧ Rel n maxMeta over H f' ∧ l.Nodup ∧ ∀ x ∈ l, 1 ≤ followed n (H.map Req.id) r.id x ∧
      (f.stop = false → over (followed n (H.map Req.id) r.id x) (following n (H.map Req.id) r.id) = true) := by
  have hk : key r.id = r.id := key_eq hr
  rw [prefetchList, hk]
  cases hg : f.graph r.id with
  | none => exact ⟨[], f, rfl, h, by simp, by simp⟩
  | some g =>
    simp only []
    have hne : r.id ≠ 0 := Nat.pos_iff_ne_zero.1 h0
    obtain ⟨M, hM⟩ := h.node _ g hg
    obtain ⟨l, q1, M1, a1, a2, a3, a4, a5, a6⟩ := popOver_spec f.over g.total g.pq.size g.pq [] hM (by have := hM.len; omega) (by simp) (by simp)
    rw [List.append_nil] at a1 a4 a5
    obtain ⟨q2, M2, b1, b2, b3⟩ := putBack_spec l q1 a2 a4 (fun x hx => ⟨a5 x hx, hM.sub x (a6 x hx).1⟩)
    have hpri : q2.pri = g.pq.pri := b3.trans a3
    refine ⟨l, { f with graph := setNode f.graph r.id { g with pq := q2 } }, ?_, ?_, a4, fun x hx => ⟨h.arc _ g hne hg x (hM.sub x (a6 x hx).1), fun hst => ?_⟩⟩
    · rw [a1, Res.bind_ok]; simp only [b1, Res.bind_ok]
    · have hnode : ∀ k g1, setNode f.graph r.id { g with pq := q2 } k = some g1 → (k = r.id ∧ g1 = { g with pq := q2 }) ∨ (k ≠ r.id ∧ f.graph k = some g1) := by
        intro k g1 hk
        unfold setNode at hk
        split at hk
        · rename_i e; exact .inl ⟨e, by injection hk with hk; exact hk.symm⟩
        · rename_i e; exact .inr ⟨e, hk⟩
      refine ⟨h.lk, h.mm, h.ov, h.ring, h.ptr, h.sizes, h.meta1, h.meta2, ?_, ?_, ?_, ?_⟩
      · intro k g1 hk
        rcases hnode k g1 hk with ⟨_, rfl⟩ | ⟨_, hk⟩
        · exact ⟨M2, b2⟩
        · exact h.node k g1 hk
      · intro k g1 hk0 hk
        rcases hnode k g1 hk with ⟨rfl, rfl⟩ | ⟨_, hk⟩
        · exact h.arc _ g hk0 hg
        · exact h.arc k g1 hk0 hk
      · intro hst k g1 hk0 hk
        rcases hnode k g1 hk with ⟨rfl, rfl⟩ | ⟨_, hk⟩
        · obtain ⟨e1, e2⟩ := h.exact' hst _ g hk0 hg
          refine ⟨e1, fun x => ?_⟩
          rw [← e2]
          simp only [cnt, hpri]
        · exact h.exact' hst k g1 hk0 hk
      · intro hst k hk0 hk
        have hk' : setNode f.graph r.id { g with pq := q2 } k = none := hk
        unfold setNode at hk'
        split at hk'
        · cases hk'
        · exact h.fresh hst k hk0 hk'
    · obtain ⟨e1, e2⟩ := h.exact' hst _ g hne hg
      have hx' := a6 x hx
      rw [← e2, ← e1, ← h.ov]
      rw [cnt, if_pos (hM.sub x hx'.1)]
      exact hx'.2

variable {σ μ : Type} {A : Algo σ} {base : σ → Base μ} {setBase : σ → Base μ → σ} {Inv : σ → Prop} {cs md : Nat} {p : Perms} {ok : Req → Prop}

theorem fetchAll_spec (S : SBSpec A base setBase Inv cs md p ok) (hp : p.ev = true) (hok : ∀ r : Req, r.size < 2147483648 → ok r) (f : State) (r : Req) {sz : ObjId → Nat}
    : ∀ (l : List Nat) {s : σ}, Inv s → (∀ x ∈ l, x < 2147483648 ∧ f.sizes x = some (sz x) ∧ sz x < 2147483648 ∧ sz x + md ≤ cs) →
      ∃ s', fetchAll A f r l s = .ok s' ∧ Inv s' ∧ FetchedAll cs md (base s).cached (l.map (fun x => (x, sz x))) (base s').cached
  | [], s, hi, _ => ⟨s, rfl, hi, rfl⟩
  | x :: l, s, hi, hl => by
    obtain ⟨h1, h2, h3, h4⟩ := hl x List.mem_cons_self
    have hmd : A.md s = md := by rw [S.mdz, (S.inv hi).md]
    have e1 : unkey x = x := unkey_eq h1
    have e2 : key x = x := key_eq h1
    obtain ⟨b, s1, a1, a2, _, a3⟩ := fetch_spec S hp (need := sz x + md) h4 ⟨x, sz x, r.next⟩ ⟨x, sz x, r.next⟩ (hok _ h3) (Nat.le_refl _) hi
    obtain ⟨s', b1, b2, b3⟩ := fetchAll_spec S hp hok f r l a2 (fun y hy => hl y (List.mem_cons_of_mem _ hy))
    refine ⟨s', ?_, b2, (base s1).cached, ?_, b3⟩
    · rw [fetchAll]
      simp only [e1, e2, h2, Option.getD_some, hmd, a1, Res.bind_ok, b1]
    · have e3 : sz x % u32 = sz x := Nat.mod_eq_of_lt (by have : u32 = 4294967296 := rfl; omega)
      simpa only [e3] using a3

theorem lastSize_of_mem {H : List Req} {x : ObjId} (h : x ∈ H.map Req.id) : ∃ q ∈ H, q.id = x ∧ lastSize H x = some q.size := by
  obtain ⟨q, hq, rfl⟩ := List.mem_map.1 h
  cases hf : H.reverse.find? (fun r => r.id = q.id) with
  | none =>
    rw [List.find?_eq_none] at hf
    exact absurd (by simp) (hf q (List.mem_reverse.2 hq))
  | some q' =>
    have h1 := List.mem_of_find?_eq_some hf
    have h2 := List.find?_some hf
    exact ⟨q', List.mem_reverse.1 h1, by simpa using h2, by rw [lastSize, hf]; rfl⟩

theorem get_spec (S : SBSpec A base setBase Inv cs md p ok) (hp : p.ev = true) (hok : ∀ r : Req, r.size < 2147483648 → ok r) {n maxMeta : Nat} (hn : 1 ≤ n) {over : Nat → Nat → Bool}
    {H : List Req} {s : σ × State} (hi : Inv s.1) (hH : ∀ q ∈ H, Proper cs md q) (h : Rel n maxMeta over H s.2) (r : Req) (hr : Proper cs md r) :
    ∃ c s' xs, A.get s.1 r = .ok (decide (r.id ∈ (base s.1).cached.ids), c) ∧ get A (hooks σ) s r = .ok (decide (r.id ∈ (base s.1).cached.ids), s') ∧ Inv s'.1 ∧
      Rel n maxMeta over (H ++ [r]) s'.2 ∧ FetchedAll cs md (base c).cached xs (base s'.1).cached ∧ (xs.map Prod.fst).Nodup ∧
      ∀ x ∈ xs, 1 ≤ followed n ((H ++ [r]).map Req.id) r.id x.1 ∧ lastSize (H ++ [r]) x.1 = some x.2 ∧
        (32 * (1 + n) * (H.length + 1) < maxMeta → over (followed n ((H ++ [r]).map Req.id) r.id x.1) (following n ((H ++ [r]).map Req.id) r.id) = true) := by
  have C := S.strong (fun _ => ()) (fun _ _ _ => rfl)
  obtain ⟨c, h1, h2, _⟩ := C.toContract.get r (hok r hr.2.2.1) hi
  obtain ⟨f, g1, g2⟩ := handleFind_spec hn hH h r hr
  obtain ⟨l, f', l1, l2, l3, l4⟩ := prefetchList_spec g2 r hr.1 hr.2.1
  have hH' : ∀ q ∈ H ++ [r], Proper cs md q := by
    intro q hq
    rcases List.mem_append.1 hq with hq | hq
    · exact hH q hq
    · rw [List.mem_singleton.1 hq]; exact hr
  have hsz : ∀ x ∈ l, x < 2147483648 ∧ f'.sizes x = some ((lastSize (H ++ [r]) x).getD 0) ∧ (lastSize (H ++ [r]) x).getD 0 < 2147483648 ∧ (lastSize (H ++ [r]) x).getD 0 + md ≤ cs := by
    intro x hx
    obtain ⟨q, hq, e, e2⟩ := lastSize_of_mem (followed_mem (l4 x hx).1)
    have hq' := hH' q hq
    rw [l2.sizes, e2, Option.getD_some, ← e]
    exact ⟨hq'.2.1, rfl, hq'.2.2.1, hq'.2.2.2⟩
  obtain ⟨c', k1, k2, k3⟩ := fetchAll_spec S hp hok f' r (sz := fun x => (lastSize (H ++ [r]) x).getD 0) l h2 hsz
  refine ⟨c, (c', f'), l.map (fun x => (x, (lastSize (H ++ [r]) x).getD 0)), h1, ?_, k2, l2, k3, ?_, ?_⟩
  · rw [get, show (hooks σ).handleFind s.2 r = .ok f from g1, Res.bind_ok, h1, Res.bind_ok]
    simp only []
    rw [show (hooks σ).prefetch A (c, f) r = prefetch A (c, f) r from rfl, prefetch]
    simp only [l1, Res.bind_ok, k1]
  · rw [List.map_map, show (Prod.fst ∘ fun x => (x, (lastSize (H ++ [r]) x).getD 0)) = id from rfl, List.map_id]
    exact l3
  · intro y hy
    obtain ⟨x, hx, rfl⟩ := List.mem_map.1 hy
    refine ⟨(l4 x hx).1, ?_, fun hmm => (l4 x hx).2 ?_⟩
    · have := (hsz x hx).2.1
      rw [l2.sizes] at this; exact this
    · cases hst : f.stop with
      | false => rfl
      | true =>
        have a := g2.meta2 hst
        have b := g2.meta1
        rw [List.length_append, List.length_singleton] at b
        omega

theorem gets_spec (S : SBSpec A base setBase Inv cs md p ok) (hp : p.ev = true) (hok : ∀ r : Req, r.size < 2147483648 → ok r) {n maxMeta : Nat} (hn : 1 ≤ n) {over : Nat → Nat → Bool} :
    ∀ (rs : List Req) {H : List Req} {s : σ × State}, Inv s.1 → (∀ q ∈ H, Proper cs md q) → (∀ q ∈ rs, Proper cs md q) → Rel n maxMeta over H s.2 →
    ∃ out s', gets A (hooks σ) s rs = .ok (out, s') ∧ Inv s'.1 ∧ Rel n maxMeta over (H ++ rs) s'.2
  | [], H, s, hi, _, _, h => ⟨[], s, rfl, hi, by simpa using h⟩
  | r :: rs, H, s, hi, hH, hrs, h => by
    have hr := hrs r List.mem_cons_self
    obtain ⟨c, s1, xs, _, h2, h3, h4, _⟩ := get_spec S hp hok hn hi hH h r hr
    obtain ⟨out, s2, g1, g2, g3⟩ := gets_spec S hp hok hn rs h3 (fun q hq => by
      rcases List.mem_append.1 hq with hq | hq
      · exact hH q hq
      · rw [List.mem_singleton.1 hq]; exact hr) (fun q hq => hrs q (List.mem_cons_of_mem _ hq)) h4
    refine ⟨decide (r.id ∈ (base s.1).cached.ids) :: out, s2, ?_, g2, ?_⟩
    · rw [gets, h2, Res.bind_ok]; simp only [g1, Res.bind_ok]
    · simpa using g3

end Verif.Prefetch.PG
