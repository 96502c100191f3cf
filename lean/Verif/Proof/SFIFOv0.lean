import Verif.Proof.SLRUv0
import Verif.Algo.SFIFOv0
/-!
# SFIFOv0 keeps its queues in the specified order

For at most two queues, or objects of one size.
-/

namespace Verif.SFIFOv0
open Verif Spec Segmented SegCaches

/-- What the cache holds: the objects in the queues. -/
def cached (s : State) : Contents := all s.n s.qs.seg

/-- Every object fits into a queue. -/
def Fits (L : Nat) (a : Spec.Segmented.Segs) : Prop := ∀ k, ∀ x ∈ a k, x.2 ≤ L

theorem Fits.sub {L : Nat} {a a' : Spec.Segmented.Segs} (h : Fits L a) (hs : Sub a' a) : Fits L a' := by
  intro k x hx
  obtain ⟨i, hi⟩ := hs k x hx
  exact h i x hi

/-- What a cooling function must do to queue `k`; with `b` it leaves the temporary request alone. -/
def Cools (L n k : Nat) (b : Bool) (f : Queues → Res Queues) : Prop :=
  ∀ {a : Spec.Segmented.Segs} {g : Queues} {c : Contents} {y : ObjId × Nat}, Abs L 0 n a g.seg → Fits L a → a k = c ++ [y] →
    ∃ g', f g = .ok g' ∧ Abs L 0 n (down L k a c y) g'.seg ∧ Sub (down L k a c y) a ∧ (b = true → g'.loc = g.loc)

section
variable {L n : Nat}

theorem full_eq {a : Spec.Segmented.Segs} {g : Arr} (h : Abs L 0 n a g) {k : Nat} (hk : k < n) (size : Nat) :
    full (g k) size 0 = decide (charge 0 (a k) + size > L) := by
  have := h.full hk size
  rw [show full (g k) size 0 = SLRUv0.full (g k) size 0 from rfl, this]; rfl

theorem makeRoom_spec {k : Nat} {b : Bool} {f : Queues → Res Queues} (hf : Cools L n k b f) {x : ObjId × Nat} (hL : x.2 ≤ L) (hk : k < n) :
    ∀ (m : Nat) {a : Spec.Segmented.Segs} {g : Queues}, Abs L 0 n a g.seg → Fits L a → (a k).length ≤ m →
      ∃ g' a', makeRoom f k x.2 0 m g = .ok g' ∧ Abs L 0 n a' g'.seg ∧ Sub a' a ∧ (b = true → g'.loc = g.loc) ∧ charge 0 (a' k) + x.2 ≤ L ∧
        put a' k (x :: a' k) = settle (fun _ => L) k (put a k (x :: a k)) := by
  intro m
  induction m with
  | zero =>
    intro a g h hw hm
    have h0 : a k = [] := List.eq_nil_of_length_eq_zero (by omega)
    have hfull : ¬ (charge 0 (a k) + x.2 > L) := by rw [h0]; simp only [charge]; omega
    refine ⟨g, a, ?_, h, Sub.refl a, fun _ => rfl, by omega, ?_⟩
    · unfold makeRoom
      rw [full_eq h hk, decide_eq_false hfull]; rfl
    · rw [settle_of_le]
      rw [put_self]; simp only [charge]; omega
  | succ m ih =>
    intro a g h hw hm
    unfold makeRoom
    rw [full_eq h hk]
    by_cases hfull : charge 0 (a k) + x.2 > L
    · obtain ⟨c, y, hc⟩ := last_of_pos (c := a k) (by omega)
      obtain ⟨g1, k1, k2, k3, k0⟩ := hf h hw hc
      obtain ⟨g', b', k4, k5, k6, k7, k8, k9⟩ := ih k2 (hw.sub k3) (by
        rw [down_self]
        rw [hc, List.length_append] at hm
        simp only [List.length_cons, List.length_nil] at hm; omega)
      refine ⟨g', b', ?_, k5, k6.trans k3, fun hb => (k7 hb).trans (k0 hb), k8, ?_⟩
      · simp only [decide_eq_true hfull, if_true, k1, Res.bind_ok]; exact k4
      · rw [k9]; exact settle_down hc (by omega)
    · refine ⟨g, a, ?_, h, Sub.refl a, fun _ => rfl, by omega, ?_⟩
      · simp only [decide_eq_false hfull, Bool.false_eq_true, if_false]
      · rw [settle_of_le]
        rw [put_self]; simp only [charge]; omega

theorem cool_zero : Cools L n 0 true (cool 0 0) := by
  intro a g c y h hw hc
  obtain ⟨o, q, h1, h2, _, _, _, h3⟩ := h.tail hc
  refine ⟨{ g with seg := upd g.seg 0 q }, ?_, h3, ?_, fun _ => rfl⟩
  · rw [cool, h2, Res.bind_ok]
  · exact sub_put (by intro z hz; rw [hc]; exact List.mem_append_left _ hz)

/-- Cooling a queue when no queue but the lowest one needs to make room. -/
theorem cool_succ {k : Nat} {a : Spec.Segmented.Segs} {g : Queues} {c : Contents} {y : ObjId × Nat} (h : Abs L 0 n a g.seg) (hw : Fits L a) (hc : a (k + 1) = c ++ [y])
    (hs : k = 0 ∨ charge 0 (a k) + y.2 ≤ L) :
    ∃ g', cool 0 (k + 1) g = .ok g' ∧ Abs L 0 n (down L (k + 1) a c y) g'.seg ∧ Sub (down L (k + 1) a c y) a := by
  have hy : y ∈ a (k + 1) := by rw [hc]; simp
  have hk1 := h.lt hy
  have hnk : k ≠ k + 1 := by omega
  obtain ⟨o, q, h1, h2, e1, e2, e3, h3⟩ := h.tail hc
  have hyL := hw (k + 1) y hy
  have hsub : Sub (put a (k + 1) c) a := sub_put (by intro z hz; rw [hc]; exact List.mem_append_left _ hz)
  have key : ∃ g1 b1, makeRoom (cool 0 k) k y.2 0 (g.seg k).q.length { seg := upd g.seg (k + 1) q, loc := o.toReq } = .ok g1 ∧ Abs L 0 n b1 g1.seg ∧
      Sub b1 (put a (k + 1) c) ∧ g1.loc = o.toReq ∧ put b1 k (y :: b1 k) = settle (fun _ => L) k (put (put a (k + 1) c) k (y :: a k)) := by
    rcases hs with rfl | hs
    · obtain ⟨g1, b1, k1, k2, k3, k4, _, k5⟩ := makeRoom_spec cool_zero (x := y) hyL (show 0 < n by omega) (g.seg 0).q.length
        (g := { seg := upd g.seg (0 + 1) q, loc := o.toReq }) h3 (hw.sub hsub) (by rw [put_ne _ hnk, h.len (by omega)]; exact Nat.le_refl _)
      rw [put_ne _ hnk] at k5
      exact ⟨g1, b1, k1, k2, k3, k4 rfl, k5⟩
    · have hfull : full ((upd g.seg (k + 1) q) k) y.2 0 = false := by
        have := full_eq h3 (k := k) (by omega) y.2
        rw [put_ne _ hnk, decide_eq_false (show ¬ (charge 0 (a k) + y.2 > L) by omega)] at this
        exact this
      refine ⟨{ seg := upd g.seg (k + 1) q, loc := o.toReq }, put a (k + 1) c, ?_, h3, Sub.refl _, rfl, ?_⟩
      · unfold makeRoom
        rw [show ({ seg := upd g.seg (k + 1) q, loc := o.toReq } : Queues).seg k = (upd g.seg (k + 1) q) k from rfl, hfull]; rfl
      · rw [put_ne _ hnk, settle_of_le]
        rw [put_self]; simp only [charge]; omega
  obtain ⟨g1, b1, k1, k2, k3, k4, k5⟩ := key
  have hab : Absent o.toReq.id b1 := by
    have := (h.absent_tail hc).sub k3
    rw [← e1] at this; exact this
  have hmod : o.toReq.size % u32 = o.size := Nat.mod_eq_of_lt (show o.size < u32 by unfold u32 at *; omega)
  obtain ⟨q', k6, k7⟩ := k2.insert (k := k) (by omega) hab (by rw [SizeOk, hmod]; exact e3)
  have hyy : (o.toReq.id, o.toReq.size % u32 + 0) = y := by
    rw [hmod]; exact Prod.ext e1 e2
  rw [hyy] at k7
  have hd : put b1 k (y :: b1 k) = down L (k + 1) a c y := k5
  refine ⟨{ g1 with seg := upd g1.seg k q' }, ?_, by rw [← hd]; exact k7, ?_⟩
  · rw [← e2, Nat.add_zero] at k1
    rw [cool, h1, Res.bind_ok, h2, Res.bind_ok, k1, Res.bind_ok, k4, k6, Res.bind_ok, ← k4]
  · rw [← hd]
    exact sub_cons (i := k + 1) (k3.trans hsub) hy

theorem cool_one : Cools L n 1 false (cool 0 1) := by
  intro a g c y h hw hc
  obtain ⟨g', h1, h2, h3⟩ := cool_succ (k := 0) h hw hc (.inl rfl)
  exact ⟨g', h1, h2, h3, by simp⟩

/-- Making room above a queue that has room for what comes down, with objects of one size. -/
theorem makeRoom_same {k m : Nat} {a : Spec.Segmented.Segs} {g : Queues} {x : ObjId × Nat} (h : Abs L 0 n a g.seg) (hw : Fits L a) (hk : k + 1 < n) (hL : x.2 ≤ L)
    (hsz : ∀ y ∈ a (k + 1), y.2 = x.2) (hroom : charge 0 (a k) + x.2 ≤ L) (hle : charge 0 (a (k + 1)) ≤ L) (hm : (a (k + 1)).length ≤ m) :
    ∃ g' a', makeRoom (cool 0 (k + 1)) (k + 1) x.2 0 m g = .ok g' ∧ Abs L 0 n a' g'.seg ∧ Sub a' a ∧
        put a' (k + 1) (x :: a' (k + 1)) = settle (fun _ => L) (k + 1) (put a (k + 1) (x :: a (k + 1))) := by
  unfold makeRoom
  rw [full_eq h hk]
  by_cases hfull : charge 0 (a (k + 1)) + x.2 > L
  · obtain ⟨c, y, hc⟩ := last_of_pos (c := a (k + 1)) (by omega)
    have hyx : y.2 = x.2 := hsz y (by rw [hc]; simp)
    obtain ⟨g1, k1, k2, k3⟩ := cool_succ h hw hc (.inr (by omega))
    have hc2 : charge 0 c + x.2 ≤ L := by
      rw [hc, charge_append] at hle
      simp only [charge] at hle; omega
    obtain ⟨m', rfl⟩ : ∃ m', m = m' + 1 := by
      cases m with
      | zero => rw [hc, List.length_append] at hm; simp at hm
      | succ m => exact ⟨m, rfl⟩
    refine ⟨g1, _, ?_, k2, k3, ?_⟩
    · simp only [decide_eq_true hfull, if_true, k1, Res.bind_ok]
      unfold makeRoom
      rw [full_eq k2 hk, down_self, decide_eq_false (by omega)]; rfl
    · have := settle_down (L := L) (x := x) hc (by omega)
      rw [← this, down_self, settle_of_le]
      rw [put_self]; simp only [charge]; omega
  · refine ⟨g, a, ?_, h, Sub.refl a, ?_⟩
    · simp only [decide_eq_false hfull, Bool.false_eq_true, if_false]
    · rw [settle_of_le]
      rw [put_self]; simp only [charge]; omega

end

/-- The state holds the queues `a`. -/
structure Holds (cs n : Nat) (a : Spec.Segmented.Segs) (s : State) : Prop where
  csz : s.base.cacheSize = cs
  mdz : s.base.objMd = 0
  nz : s.n = n
  abs : Abs (cs / n) 0 n a s.qs.seg
  fits : Fits (cs / n) a
  within : ∀ k, 1 ≤ k → charge 0 (a k) ≤ cs / n
  cap : algo.occ s ≤ (cs : Int)

/-- Between calls. -/
def Inv (sz : ObjId → Nat) (cs n : Nat) (p : Perms) (s : State) : Prop := ∃ a, Holds cs n a s ∧ SLRUv0.Sized sz 0 p a

/-- the limits of the queues -/
abbrev lim (cs n : Nat) : Nat → Nat := fun _ => cs / n

/-- Two queues at most, or objects of one size. -/
def Simple (sz : ObjId → Nat) (n : Nat) : Prop := n ≤ 2 ∨ ∃ c, ∀ id, sz id = c

section
variable {cs n : Nat} {a : Spec.Segmented.Segs} {s : State}

namespace Holds

theorem mem (h : Holds cs n a s) (x : ObjId × Nat) : x ∈ cached s ↔ ∃ k, x ∈ a k := by
  rw [cached, h.nz]; exact h.abs.mem_all x

theorem ids (h : Holds cs n a s) (id : ObjId) : id ∈ (cached s).ids ↔ ∃ k y, y ∈ a k ∧ y.1 = id := by
  rw [cached, h.nz]; exact h.abs.ids_all id

theorem nodup (h : Holds cs n a s) : (cached s).ids.Nodup := by rw [cached, h.nz]; exact h.abs.nodup

theorem absent (h : Holds cs n a s) {id : ObjId} (hn : id ∉ (cached s).ids) : Absent id a := by
  intro k y hy e
  exact hn ((h.ids id).2 ⟨k, y, hy, e⟩)

theorem sub {a' : Spec.Segmented.Segs} {s' : State} (h : Holds cs n a s) (h' : Holds cs n a' s') (hs : Sub a' a) : (cached s').Subperm (cached s) := by
  rw [cached, cached, h.nz, h'.nz]; exact sub_all h.abs h'.abs hs

theorem occ (h : Holds cs n a s) : algo.occ s = (charge 0 (cached s) : Nat) := by
  show ((List.range s.n).map _).sum = _
  rw [cached, h.nz]; exact sum_occ h.abs n (Nat.le_refl n)

theorem charge_subperm {c d : Contents} (h : c.Subperm d) : charge 0 c ≤ charge 0 d := by
  obtain ⟨l, h1, h2⟩ := h
  rw [← charge_perm h1]
  clear h1
  induction h2 with
  | slnil => exact Nat.le_refl _
  | cons _ _ ih => simp only [charge]; omega
  | cons_cons _ _ ih => simp only [charge]; omega

/-- A state with fewer objects. -/
theorem shrink (h : Holds cs n a s) {g : Queues} {a' : Spec.Segmented.Segs} (h1 : Abs (cs / n) 0 n a' g.seg) (hs : Sub a' a) (h2 : ∀ k, 1 ≤ k → charge 0 (a' k) ≤ cs / n) :
    Holds cs n a' { s with qs := g } := by
  refine ⟨h.csz, h.mdz, h.nz, h1, h.fits.sub hs, h2, ?_⟩
  show ((List.range s.n).map _).sum ≤ _
  rw [h.nz, sum_occ h1 n (Nat.le_refl n)]
  have e := h.cap
  rw [h.occ, cached, h.nz] at e
  have := charge_subperm (sub_all h.abs h1 hs)
  omega

theorem locate_hit (h : Holds cs n a s) {k : Nat} {x : ObjId × Nat} (hx : x ∈ a k) : locate s x.1 = some k := by
  have hk := h.abs.lt hx
  rw [locate, h.nz]
  refine find_range hk ?_ ?_
  · rw [h.abs.lookup hk]; exact decide_eq_true (List.mem_map_of_mem hx)
  · intro j hj
    rw [h.abs.lookup (by omega)]
    refine decide_eq_false ?_
    intro hm
    obtain ⟨y, hy, e⟩ := List.mem_map.1 hm
    have := h.abs.uniq j k y x hy hx e
    omega

theorem locate_miss (h : Holds cs n a s) {id : ObjId} (hn : id ∉ (cached s).ids) : locate s id = none := by
  rw [locate, h.nz]
  refine find_range_none ?_
  intro j hj
  rw [h.abs.lookup hj]
  refine decide_eq_false ?_
  intro hm
  obtain ⟨y, hy, e⟩ := List.mem_map.1 hm
  exact h.absent hn j y hy e

theorem find_miss (h : Holds cs n a s) {r : Req} (hn : r.id ∉ (cached s).ids) (u : Bool) : find s r u = .ok (false, s) := by
  rw [find, h.locate_miss hn]

/-- A hit. -/
theorem find_hit {sz : ObjId → Nat} (hsim : Simple sz n) (h : Holds cs n a s) (hall : ∀ k, ∀ y ∈ a k, y.2 = sz y.1) {k : Nat} {x : ObjId × Nat} (hx : x ∈ a k)
    {r : Req} (hid : r.id = x.1) (hsz : r.size = x.2) (u : Bool) :
    ∃ s', find s r u = .ok (true, s') ∧ Holds cs n (fifoHit (lim cs n) n a k x) s' ∧ Sub (fifoHit (lim cs n) n a k x) a ∧ s'.base = s.base := by
  have hk := h.abs.lt hx
  rw [find, hid, h.locate_hit hx]
  simp only [h.nz]
  by_cases htop : k + 1 = n
  · simp only [if_pos htop, fifoHit]
    exact ⟨s, rfl, h, Sub.refl a, rfl⟩
  · simp only [if_neg htop, fifoHit]
    obtain ⟨q, h1, h2⟩ := h.abs.remove hx
    have hk1 : k + 1 < n := by omega
    have hnk : k + 1 ≠ k := by omega
    have hxL : x.2 ≤ cs / n := h.fits k x hx
    have habs := h.abs.absent_without hx
    have hsub1 : Sub (put a k (without x.1 (a k))) a := sub_put (fun y hy => List.mem_of_mem_filter hy)
    have hchg : charge 0 (without x.1 (a k)) + x.2 ≤ charge 0 (a k) := charge_without hx
    have hwi : ∀ j, 1 ≤ j → charge 0 (put a k (without x.1 (a k)) j) ≤ cs / n := by
      intro j hj
      by_cases e : j = k
      · subst e; rw [put_self]; have := h.within j hj; omega
      · rw [put_ne _ e]; exact h.within j hj
    have key : ∃ g1 b1, makeRoom (cool 0 (k + 1)) (k + 1) x.2 0 (s.qs.seg (k + 1)).q.length { s.qs with seg := upd s.qs.seg k q } = .ok g1 ∧
        Abs (cs / n) 0 n b1 g1.seg ∧ Sub b1 (put a k (without x.1 (a k))) ∧
        put b1 (k + 1) (x :: b1 (k + 1)) = settle (fun _ => cs / n) (k + 1) (put (put a k (without x.1 (a k))) (k + 1) (x :: a (k + 1))) := by
      have hlen : ((put a k (without x.1 (a k))) (k + 1)).length ≤ (s.qs.seg (k + 1)).q.length := by
        rw [put_ne _ hnk, h.abs.len hk1]; exact Nat.le_refl _
      by_cases hk0 : k = 0
      · subst hk0
        obtain ⟨g1, b1, k1, k2, k3, _, _, k4⟩ := makeRoom_spec cool_one (x := x) hxL hk1 (s.qs.seg (0 + 1)).q.length
          (g := { s.qs with seg := upd s.qs.seg 0 q }) h2 (h.fits.sub hsub1) hlen
        rw [put_ne _ (show (1 : Nat) ≠ 0 by omega)] at k4
        exact ⟨g1, b1, k1, k2, k3, k4⟩
      · rcases hsim with hsim | ⟨c, hc⟩
        · omega
        · obtain ⟨g1, b1, k1, k2, k3, k4⟩ := makeRoom_same (g := { s.qs with seg := upd s.qs.seg k q }) (x := x) h2 (h.fits.sub hsub1) hk1 hxL
            (by
              intro y hy
              rw [put_ne _ hnk] at hy
              rw [hall _ y hy, hall _ x hx, hc, hc])
            (by rw [put_self]; have := h.within k (by omega); omega)
            (hwi (k + 1) (by omega)) hlen
          rw [put_ne _ hnk] at k4
          exact ⟨g1, b1, k1, k2, k3, k4⟩
    obtain ⟨g1, b1, k1, k2, k3, k4⟩ := key
    obtain ⟨m, hm1, hm2⟩ := h.abs.small hx
    have hu : r.size < u32 := by rw [hsz]; exact hm2
    obtain ⟨q', k5, k6⟩ := k2.insert (k := k + 1) (r := r) hk1 (by rw [hid]; exact habs.sub k3)
      (by rw [SizeOk, Nat.mod_eq_of_lt hu]; exact hu)
    have hxx : (r.id, r.size % u32 + 0) = x := by rw [Nat.mod_eq_of_lt hu, hsz, hid]; rfl
    rw [hxx, k4] at k6
    have hsubF : Sub (settle (fun _ => cs / n) (k + 1) (put (put a k (without x.1 (a k))) (k + 1) (x :: a (k + 1)))) a := by
      rw [← k4]
      exact sub_cons (i := k) (k3.trans hsub1) hx
    refine ⟨{ s with qs := { g1 with seg := upd g1.seg (k + 1) q' } }, ?_, h.shrink (g := { g1 with seg := upd g1.seg (k + 1) q' }) k6 hsubF ?_, hsubF, rfl⟩
    · rw [h1, Res.bind_ok]
      simp only [h.mdz, hsz]
      rw [k1, Res.bind_ok, k5, Res.bind_ok, h.nz]
    · intro j hj
      exact within_above (L := cs / n) (k + 1) _ (by
        intro i hi e
        rw [put_ne _ e]; exact hwi i hi) j hj
where
  charge_without {x : ObjId × Nat} {c : Contents} (hx : x ∈ c) : charge 0 (without x.1 c) + x.2 ≤ charge 0 c := by
    induction c with
    | nil => cases hx
    | cons y c ih =>
      rw [without, List.filter_cons]
      rcases List.mem_cons.1 hx with rfl | hx
      · have := SLRUv0.Holds.charge_filter_le (fun y => decide (y.1 ≠ x.1)) c
        simp only [ne_eq, not_true_eq_false, decide_false, Bool.false_eq_true, if_false, charge]
        simp only [ne_eq] at this
        omega
      · have := ih hx
        rw [without] at this
        split
        · simp only [charge]; omega
        · simp only [charge]; omega
  within_above {L : Nat} : ∀ (k : Nat) (a : Spec.Segmented.Segs), (∀ j, 1 ≤ j → j ≠ k → charge 0 (a j) ≤ L) → ∀ j, 1 ≤ j → charge 0 (settle (fun _ => L) k a j) ≤ L := by
    intro k
    induction k with
    | zero =>
      intro a h j hj
      rw [settle, put_ne _ (by omega)]; exact h j hj (by omega)
    | succ k ih =>
      intro a h
      rw [settle]
      have h1 : ∀ j, 1 ≤ j → charge 0 (put a (k + 1) (keep L (a (k + 1))) j) ≤ L := by
        intro j hj
        by_cases e : j = k + 1
        · subst e; rw [put_self]; exact keep_charge _ _
        · rw [put_ne _ e]; exact h j hj e
      split
      · exact h1
      · apply ih
        intro j hj e
        rw [put_ne _ e]; exact h1 j hj

theorem pos_lt (h : Holds cs n a s) {k : Nat} (hp : 0 < charge 0 (a k)) : k < n := by
  obtain ⟨c, x, hc⟩ := last_of_pos hp
  exact h.abs.lt (k := k) (x := x) (by rw [hc]; simp)

theorem lowest_some (h : Holds cs n a s) {k : Nat} (hk : k < n) (hp : 0 < charge 0 (a k)) (hl : ∀ j, j < k → charge 0 (a j) = 0) : lowest s = some k := by
  rw [lowest, h.nz]
  refine find_range hk ?_ ?_
  · rw [h.abs.occ hk]; exact decide_eq_true (by omega)
  · intro j hj
    rw [h.abs.occ (by omega), hl j hj]; exact decide_eq_false (by omega)

theorem lowest_none (h : Holds cs n a s) (hl : ∀ j, charge 0 (a j) = 0) : lowest s = none := by
  rw [lowest, h.nz]
  refine find_range_none ?_
  intro j hj
  rw [h.abs.occ hj, hl j]; exact decide_eq_false (by omega)

/-- Eviction from a cache that holds bytes. -/
theorem evict (h : Holds cs n a s) {i : Nat} (hp : 0 < charge 0 (a i)) :
    ∃ s' x k c, SFIFOv0.evict s = .ok s' ∧ toEvict s = some x.1 ∧ 0 < charge 0 (a k) ∧ (∀ j, j < k → charge 0 (a j) = 0) ∧ a k = c ++ [x] ∧
      Holds cs n (put a k c) s' ∧ s'.base = s.base ∧ Absent x.1 (put a k c) ∧ Sub (put a k c) a := by
  obtain ⟨k, h0, h1, h2⟩ := exists_first (P := fun k => 0 < charge 0 (a k)) hp
  have hk := h.pos_lt h1
  have hl : ∀ j, j < k → charge 0 (a j) = 0 := fun j hj => by have := h2 j hj; omega
  obtain ⟨c, x, hc⟩ := last_of_pos h1
  obtain ⟨o, q, t1, t2, t3, _, _, t4⟩ := h.abs.tail hc
  have hlow := h.lowest_some hk h1 hl
  have hsub : Sub (put a k c) a := sub_put (by intro y hy; rw [hc]; exact List.mem_append_left _ hy)
  refine ⟨{ s with qs := { s.qs with seg := upd s.qs.seg k q } }, x, k, c, ?_, ?_, h1, hl, hc, h.shrink (g := { s.qs with seg := upd s.qs.seg k q }) t4 hsub ?_, rfl,
    h.abs.absent_tail hc, hsub⟩
  · rw [SFIFOv0.evict, hlow]
    simp only [t2, Res.bind_ok]
  · rw [toEvict, hlow]
    obtain ⟨l, r1, r2⟩ := h.abs.rep k hk
    simp only [r1.q]
    rw [← chg_ids 0, ← r2, hc]
    simp [Contents.ids]
  · intro j hj
    by_cases e : j = k
    · subst e
      have := h.within j hj
      rw [hc, charge_append] at this
      rw [put_self]; omega
    · rw [put_ne _ e]; exact h.within j hj

/-- The victim was cached and is gone, the rest stays. -/
theorem evict_perm {x : ObjId × Nat} {k : Nat} {c : Contents} {s' : State} (h : Holds cs n a s) (hc : a k = c ++ [x]) (h' : Holds cs n (put a k c) s') :
    (cached s).Perm (x :: cached s') := by
  have hx : x ∈ a k := by rw [hc]; simp
  have habs := h.abs.absent_tail hc
  refine (List.perm_ext_iff_of_nodup (h.nodup.of_map _) ?_).2 ?_
  · rw [List.nodup_cons]
    refine ⟨?_, h'.nodup.of_map _⟩
    intro hm
    obtain ⟨i, hi⟩ := (h'.mem _).1 hm
    exact habs i _ hi rfl
  · intro y
    rw [List.mem_cons, h.mem, h'.mem]
    constructor
    · rintro ⟨i, hi⟩
      by_cases ei : i = k
      · subst ei
        rw [hc] at hi
        rcases List.mem_append.1 hi with hi | hi
        · exact .inr ⟨i, by rw [put_self]; exact hi⟩
        · exact .inl (by simpa using hi)
      · exact .inr ⟨i, by rw [put_ne _ ei]; exact hi⟩
    · rintro (rfl | ⟨i, hi⟩)
      · exact ⟨k, hx⟩
      · by_cases ei : i = k
        · subst ei; rw [put_self] at hi; exact ⟨i, by rw [hc]; exact List.mem_append_left _ hi⟩
        · rw [put_ne _ ei] at hi; exact ⟨i, hi⟩

theorem count_eq (h : Holds cs n a s) : count s = (cached s).length := by
  rw [count, cached, h.nz]; exact sum_len h.abs n (Nat.le_refl n)

/-- An insertion. -/
theorem insert (h : Holds cs n a s) (hn : 1 ≤ n) {r : Req} (hnew : Absent r.id a) (hu : r.size < u32) (hL : r.size ≤ cs / n) (hm : algo.mustEvict s r = false) :
    ∃ s' k, SFIFOv0.insert s r = .ok s' ∧ Target (lim cs n) n a r.size k ∧ Holds cs n (put a k ((r.id, r.size) :: a k)) s' ∧ s'.base = s.base ∧
      (cached s').Perm ((r.id, r.size) :: cached s) := by
  have hpk : ∃ k, (pick s r).getD 0 = k ∧ Target (lim cs n) n a r.size k ∧ k < n ∧ (1 ≤ k → charge 0 (a k) + r.size ≤ cs / n) := by
    by_cases hroom : ∃ k, k < n ∧ charge 0 (a k) + r.size ≤ cs / n
    · obtain ⟨k0, hk0, hf0⟩ := hroom
      obtain ⟨k, hk, hf, hl⟩ := exists_first (P := fun k => charge 0 (a k) + r.size ≤ cs / n) hf0
      have hkn : k < n := by omega
      have hp : pick s r = some k := by
        rw [pick, h.nz]
        refine find_range hkn ?_ ?_
        · have hf' : ¬ (charge 0 (a k) + r.size > cs / n) := Nat.not_lt.2 hf
          rw [h.mdz, full_eq h.abs hkn, decide_eq_false hf']; rfl
        · intro j hj
          have := hl j hj
          rw [h.mdz, full_eq h.abs (by omega), decide_eq_true (by omega)]; rfl
      refine ⟨k, by rw [hp]; rfl, .inl ⟨hkn, ?_, ?_⟩, hkn, fun _ => hf⟩
      · rw [bytes_eq_charge]; exact hf
      · intro j hj
        have := hl j hj
        rw [bytes_eq_charge]; show cs / n < _; omega
    · have hno : ∀ k, k < n → cs / n < charge 0 (a k) + r.size := by
        intro k hk
        exact Nat.lt_of_not_le (fun hf => hroom ⟨k, hk, hf⟩)
      have hp : pick s r = none := by
        rw [pick, h.nz]
        refine find_range_none ?_
        intro j hj
        have := hno j hj
        rw [h.mdz, full_eq h.abs hj, decide_eq_true (by omega)]; rfl
      refine ⟨0, by rw [hp]; rfl, .inr ⟨rfl, ?_⟩, by omega, by omega⟩
      intro j hj
      rw [bytes_eq_charge]; exact hno j hj
  obtain ⟨k, e, ht, hk, hkf⟩ := hpk
  obtain ⟨q, h1, h2⟩ := h.abs.insert hk hnew (by rw [SizeOk, Nat.mod_eq_of_lt hu]; exact hu)
  rw [Nat.mod_eq_of_lt hu, Nat.add_zero] at h2
  have hmem : ∀ j y, y ∈ put a k ((r.id, r.size) :: a k) j → y = (r.id, r.size) ∨ y ∈ a j := by
    intro j y hy
    by_cases e : j = k
    · subst e; rw [put_self] at hy
      exact List.mem_cons.1 hy
    · rw [put_ne _ e] at hy; exact .inr hy
  have hperm : (all n (SegCaches.upd s.qs.seg k q)).Perm ((r.id, r.size) :: cached s) := by
    refine (List.perm_ext_iff_of_nodup (h2.nodup.of_map _) ?_).2 ?_
    · rw [List.nodup_cons]
      refine ⟨?_, h.nodup.of_map _⟩
      intro hc
      obtain ⟨i, hi⟩ := (h.mem _).1 hc
      exact hnew i _ hi rfl
    · intro y
      rw [List.mem_cons, h.mem, h2.mem_all]
      constructor
      · rintro ⟨i, hi⟩
        rcases hmem i _ hi with e | hi
        · exact .inl e
        · exact .inr ⟨i, hi⟩
      · rintro (rfl | ⟨i, hi⟩)
        · exact ⟨k, by rw [put_self]; exact List.mem_cons_self⟩
        · refine ⟨i, ?_⟩
          by_cases ei : i = k
          · subst ei; rw [put_self]; exact List.mem_cons_of_mem _ hi
          · rw [put_ne _ ei]; exact hi
  refine ⟨{ s with qs := { s.qs with seg := upd s.qs.seg k q } }, k, ?_, ht, ⟨h.csz, h.mdz, h.nz, h2, ?_, ?_, ?_⟩, rfl, ?_⟩
  · rw [SFIFOv0.insert, e, h1, Res.bind_ok]
  · intro j y hy
    rcases hmem j y hy with rfl | hy
    · exact hL
    · exact h.fits j y hy
  · intro j hj
    by_cases e : j = k
    · subst e; rw [put_self]; have := hkf hj; simp only [charge]; omega
    · rw [put_ne _ e]; exact h.within j hj
  · show ((List.range s.n).map _).sum ≤ _
    have e1 := sum_occ h2 n (Nat.le_refl n)
    rw [charge_perm hperm] at e1
    simp only [charge] at e1
    have hm' := hm
    simp only [Algo.mustEvict, decide_eq_false_iff_not] at hm'
    rw [h.occ, show algo.md s = 0 from h.mdz, show algo.cacheSize s = cs from h.csz] at hm'
    rw [h.nz]
    have e2 : ((List.range n).map (fun k_1 => ((SegCaches.upd s.qs.seg k q) k_1).base.occ)).sum ≤ (cs : Int) := by rw [e1]; omega
    exact e2
  · rw [cached]
    show (all s.n (SegCaches.upd s.qs.seg k q)).Perm _
    rw [h.nz]; exact hperm

theorem removeFrom_hit (h : Holds cs n a s) {k : Nat} {x : ObjId × Nat} (hx : x ∈ a k) :
    ∃ s', Holds cs n (put a k (without x.1 (a k))) s' ∧ s'.base = s.base ∧ ∀ m i, i ≤ k → k < i + m → i + m ≤ n → removeFrom s x.1 i m = .ok (true, s') := by
  obtain ⟨q, h1, h2⟩ := h.abs.remove hx
  refine ⟨{ s with qs := { s.qs with seg := upd s.qs.seg k q } }, h.shrink (g := { s.qs with seg := upd s.qs.seg k q }) h2 (sub_put (fun y hy => List.mem_of_mem_filter hy)) ?_, rfl, ?_⟩
  · intro j hj
    by_cases e : j = k
    · subst e; rw [put_self]; exact Nat.le_trans (SLRUv0.Holds.charge_filter_le _ _) (h.within j hj)
    · rw [put_ne _ e]; exact h.within j hj
  · intro m
    induction m with
    | zero => intro i hi hm _; omega
    | succ m ih =>
      intro i hi hm hn
      rw [removeFrom]
      by_cases e : i = k
      · subst e
        rw [h1, Res.bind_ok]; rfl
      · rw [h.abs.remove_miss (by omega), Res.bind_ok]
        · simp only [Bool.false_eq_true, if_false]
          exact ih (i + 1) (by omega) (by omega) (by omega)
        · intro hm
          obtain ⟨y, hy, ey⟩ := List.mem_map.1 hm
          exact e (h.abs.uniq i k y x hy hx ey)

theorem removeFrom_miss (h : Holds cs n a s) {id : ObjId} (hnew : Absent id a) : ∀ m i, i + m ≤ n → removeFrom s id i m = .ok (false, s) := by
  intro m
  induction m with
  | zero => intro i _; rfl
  | succ m ih =>
    intro i hi
    rw [removeFrom, h.abs.remove_miss (by omega), Res.bind_ok]
    · simp only [Bool.false_eq_true, if_false]
      exact ih (i + 1) (by omega)
    · intro hm
      obtain ⟨y, hy, ey⟩ := List.mem_map.1 hm
      exact hnew i y hy ey

/-- A removal. -/
theorem remove (h : Holds cs n a s) (id : ObjId) :
    ∃ s' a', SFIFOv0.remove s id = .ok (decide (id ∈ (cached s).ids), s') ∧ Holds cs n a' s' ∧ s'.base = s.base ∧ ∀ k, a' k = without id (a k) := by
  by_cases hm : id ∈ (cached s).ids
  · obtain ⟨k, x, hx, rfl⟩ := (h.ids _).1 hm
    obtain ⟨s', h1, h2, h3⟩ := h.removeFrom_hit hx
    have hk := h.abs.lt hx
    refine ⟨s', _, ?_, h1, h2, ?_⟩
    · rw [SFIFOv0.remove, decide_eq_true hm, h.nz]; exact h3 n 0 (by omega) (by omega) (by omega)
    · intro j
      by_cases e : j = k
      · subst e; rw [put_self]
      · rw [put_ne _ e, without, List.filter_eq_self.2]
        intro y hy
        have : y.1 ≠ x.1 := fun ey => e (h.abs.uniq j k y x hy hx ey)
        simpa using this
  · refine ⟨s, a, ?_, h, rfl, ?_⟩
    · rw [SFIFOv0.remove, decide_eq_false hm, h.nz]; exact h.removeFrom_miss (h.absent hm) n 0 (by omega)
    · intro j
      rw [without, List.filter_eq_self.2]
      intro y hy
      have := h.absent hm j y hy
      simpa using this

theorem remove_perm {a' : Spec.Segmented.Segs} {s' : State} {id : ObjId} (h : Holds cs n a s) (h' : Holds cs n a' s')
    (e : ∀ k, a' k = without id (a k)) : (cached s').Perm ((cached s).filter (fun x => x.1 ≠ id)) := by
  refine (List.perm_ext_iff_of_nodup (h'.nodup.of_map _) ((h.nodup.of_map _).filter _)).2 ?_
  intro x
  rw [h'.mem, List.mem_filter, h.mem]
  simp only [e, without, List.mem_filter]
  constructor
  · rintro ⟨k, h1, h2⟩; exact ⟨⟨k, h1⟩, h2⟩
  · rintro ⟨⟨k, h1⟩, h2⟩; exact ⟨k, h1, h2⟩

theorem bump (h : Holds cs n a s) : Holds cs n a (algo.bump s) := ⟨h.csz, h.mdz, h.nz, h.abs, h.fits, h.within, h.cap⟩

end Holds

theorem canInsert_snd (s : State) (r : Req) : (canInsert s r).2.qs = s.qs ∧ (canInsert s r).2.n = s.n ∧
    (canInsert s r).2.base.cacheSize = s.base.cacheSize ∧ (canInsert s r).2.base.objMd = s.base.objMd := by
  refine ⟨rfl, rfl, ?_, ?_⟩ <;>
  · simp only [canInsert, Base.canInsertDefault]
    split
    · rfl
    · split <;> rfl

theorem Holds.canInsert (h : Holds cs n a s) (r : Req) : Holds cs n a (SFIFOv0.canInsert s r).2 := by
  obtain ⟨h1, h2, h3, h4⟩ := canInsert_snd s r
  exact ⟨h3.trans h.csz, h4.trans h.mdz, h2.trans h.nz, by rw [h1]; exact h.abs, h.fits, h.within, h.cap⟩

theorem cached_canInsert (s : State) (r : Req) : cached (canInsert s r).2 = cached s := rfl

theorem Holds.canInsert_fst (h : Holds cs n a s) (hn : 1 ≤ n) (r : Req) :
    (SFIFOv0.canInsert s r).1 = (admitsBase s.base r && decide (r.size ≤ cs / n)) := by
  simp only [SFIFOv0.canInsert, Base.canInsertDefault, admitsBase, h.csz, h.mdz, h.abs.csz (show 0 < n by omega), Nat.add_zero]
  by_cases h0 : (s.base.adm.admit r).1 = false
  · simp [h0]
  · have h0' : (s.base.adm.admit r).1 = true := by simpa using h0
    by_cases h1 : r.size > cs
    · simp [h0', h1]; omega
    · simp [h0', h1, Nat.not_lt.1 h1]

theorem Holds.pos_of_must {r : Req} (h : Holds cs n a s) (hL : r.size ≤ cs / n) (hm : algo.mustEvict s r = true) : ∃ k, 0 < charge 0 (a k) := by
  have h1 : cs / n ≤ cs := Nat.div_le_self cs n
  simp only [Algo.mustEvict, decide_eq_true_eq] at hm
  rw [h.occ, show algo.md s = 0 from h.mdz, show algo.cacheSize s = cs from h.csz] at hm
  obtain ⟨x, hx, hp⟩ := SLRUv0.charge_all_pos (md := 0) (c := cached s) (by omega)
  obtain ⟨k, hk⟩ := (h.mem x).1 hx
  exact ⟨k, Nat.lt_of_lt_of_le hp (charge_mem hk)⟩

theorem inv_init (sz : ObjId → Nat) (cs n : Nat) (p : Perms) (adm : Adm) : Inv sz cs n p (init cs adm n) := by
  refine ⟨fun _ => [], ⟨rfl, rfl, rfl, ⟨fun k _ => ⟨[], Rep.init (cs / n) 0 adm, rfl⟩, fun _ _ => rfl, ?_⟩, ?_, fun _ _ => by simp [charge], ?_⟩, ?_⟩
  · intro i j x y hx; cases hx
  · intro k x hx; cases hx
  · show ((List.range n).map (fun _ => (0 : Int))).sum ≤ _
    simp
  · intro k x hx; cases hx

theorem cached_init (cs n : Nat) (adm : Adm) : cached (init cs adm n) = [] := by
  refine List.eq_nil_iff_forall_not_mem.2 ?_
  intro x hx
  simp only [cached, all, List.mem_flatMap] at hx
  obtain ⟨k, _, hk⟩ := hx
  cases hk

variable {sz : ObjId → Nat} {p : Perms}

theorem contract (hn : 1 ≤ n) (hsim : Simple sz n) (hp : p.upd = false) (hpk : p.peek = false) (hpi : p.ins = false) :
    Contract algo cached (Inv sz cs n p) (fun _ r => r.size ≤ cs / n) (fun s => (cached s).length) cs 0 p (Steady sz (cs / n) 0 p) where
  csz := fun ⟨_, h, _⟩ => h.csz
  mdz := fun ⟨_, h, _⟩ => h.mdz
  nodup := fun ⟨_, h, _⟩ => h.nodup
  occ := fun ⟨_, h, _⟩ => h.occ
  nObj := by
    rintro s ⟨a, h, _⟩
    show ((List.range s.n).map _).sum = _
    rw [cached, h.nz]; exact sum_nObj h.abs n (Nat.le_refl n)
  cap := fun ⟨_, h, _⟩ => h.cap
  bump := fun ⟨a, h, hs⟩ => ⟨⟨a, h.bump, hs⟩, rfl⟩
  findF := by
    intro h
    rw [hpk, hpi] at h
    rcases h with h | h <;> cases h
  findHit := by
    rintro s r ⟨a, h, hs⟩ hin hf
    rcases hf with hf | ⟨hok, _⟩
    · rw [hp] at hf; cases hf
    · obtain ⟨k, x, hx, e⟩ := (h.ids _).1 hin
      obtain ⟨s', h1, h2, h3, _⟩ := h.find_hit hsim (fun k y hy => (hs k y hy).1) hx e.symm (by rw [(hs k x hx).1, hok.1, e]; rfl) true
      exact ⟨s', h1, ⟨_, h2, hs.sub h3⟩, h.sub h2 h3⟩
  findMiss := by
    rintro s r ⟨a, h, hs⟩ hin _
    refine ⟨s, h.find_miss hin true, ⟨a, h, hs⟩, List.Perm.refl _, ⟨a, h.canInsert r, hs⟩, List.Perm.refl _, ?_⟩
    intro hc _
    have : (SFIFOv0.canInsert s r).1 = true := hc
    rw [h.canInsert_fst hn] at this
    simp only [Bool.and_eq_true, decide_eq_true_eq] at this
    exact this.2
  fuel := by
    rintro s ⟨a, h, _⟩
    show _ ≤ count s
    rw [h.count_eq]; exact Nat.le_refl _
  evictLoop := by
    rintro s r ⟨a, h, hs⟩ hok hL hnew hm
    obtain ⟨i, hi⟩ := h.pos_of_must hL hm
    obtain ⟨s', x, k, c, h1, _, _, _, h3, h4, _, _, h6⟩ := h.evict hi
    refine ⟨s', h1, ⟨_, h4, hs.sub h6⟩, hL, h.sub h4 h6, ?_⟩
    have := (h.evict_perm h3 h4).length_eq
    rw [List.length_cons] at this; omega
  insert := by
    rintro s r ⟨a, h, hs⟩ hok hL hnew hm
    have hu : r.size < u32 := by have := SLRUv0.Steady.u32 hok hL; omega
    obtain ⟨s', k, h1, _, h2, _, h3⟩ := h.insert hn (h.absent hnew) hu hL hm
    refine ⟨s', h1, ⟨_, h2, ?_⟩, by rw [Nat.mod_eq_of_lt hu]; exact h3.subperm⟩
    intro j y hy
    by_cases e : j = k
    · subst e; rw [put_self] at hy
      rcases List.mem_cons.1 hy with rfl | hy
      · exact ⟨hok.1, (hok.2.1 hL).2⟩
      · exact hs j y hy
    · rw [put_ne _ e] at hy; exact hs j y hy
  userInsert := by intro h; rw [hpi] at h; cases h
  remove := by
    rintro _ s id ⟨a, h, hs⟩
    obtain ⟨s', a', h1, h2, _, h3⟩ := h.remove id
    have hsub : Sub a' a := by
      intro j y hy
      rw [h3 j] at hy
      exact ⟨j, List.mem_of_mem_filter hy⟩
    exact ⟨_, s', h1, ⟨_, h2, hs.sub hsub⟩, h.sub h2 hsub⟩
  evict := by
    rintro hpe s r ⟨a, h, hs⟩ hne
    obtain ⟨x, hx⟩ := List.exists_mem_of_ne_nil _ hne
    obtain ⟨k, hk⟩ := (h.mem x).1 hx
    obtain ⟨s', y, j, c, h1, _, _, _, h3, h4, _, _, h6⟩ := h.evict (i := k) (Nat.lt_of_lt_of_le ((hs k _ hk).2 hpe) (charge_mem hk))
    exact ⟨s', h1, ⟨_, h4, hs.sub h6⟩, h.sub h4 h6⟩

theorem oneByOne (hn : 1 ≤ n) (hsim : Simple sz n) (hp : p.upd = false) (hpk : p.peek = false) (hpi : p.ins = false) :
    OneByOne algo cached (Inv sz cs n p) (fun _ r => r.size ≤ cs / n) (fun s => (cached s).length) cs 0 p (Steady sz (cs / n) 0 p) where
  toContract := contract hn hsim hp hpk hpi
  evictAtMostOne := by
    rintro s s' r ⟨a, h, hs⟩ hok hL hnew hm he
    obtain ⟨i, hi⟩ := h.pos_of_must hL hm
    obtain ⟨s1, x, k, c, h1, _, _, _, h3, h4, _⟩ := h.evict hi
    have he' : SFIFOv0.evict s = .ok s' := he
    rw [h1] at he'
    cases he'
    exact ⟨[x], by simp, h.evict_perm h3 h4⟩

/-- The objects on each queue, most recent first. -/
def segs (s : State) : Spec.Segmented.Segs := fun k => if k < s.n then chg 0 (s.qs.seg k).objs else []

theorem Holds.segs (h : Holds cs n a s) : segs s = a := by
  funext k
  rw [SFIFOv0.segs, h.nz]
  by_cases hk : k < n
  · obtain ⟨l, h1, h2⟩ := h.abs.rep k hk
    rw [if_pos hk, h1.objs, h2]
  · rw [if_neg hk, h.abs.out k (by omega)]

theorem loop_spec {r : Req} (hL : r.size ≤ cs / n) : ∀ (m : Nat) {s : State} {a : Spec.Segmented.Segs}, Holds cs n a s → (cached s).length ≤ m →
    ∃ s' vs a', algo.evictLoop r m s = .ok s' ∧ Holds cs n a' s' ∧ EvictsAll n a vs a' ∧ Sub a' a ∧ s'.base = s.base ∧ algo.mustEvict s' r = false := by
  intro m
  induction m with
  | zero =>
    intro s a h hm
    have h0 : cached s = [] := List.eq_nil_of_length_eq_zero (by omega)
    have hme : algo.mustEvict s r = false := by
      cases hc : algo.mustEvict s r with
      | false => rfl
      | true =>
        simp only [Algo.mustEvict, decide_eq_true_eq] at hc
        rw [h.occ, show algo.md s = 0 from h.mdz, show algo.cacheSize s = cs from h.csz, h0] at hc
        simp only [charge] at hc
        have h1 : cs / n ≤ cs := Nat.div_le_self cs n
        omega
    exact ⟨s, [], a, by simp [Algo.evictLoop, hme], h, .none a, Sub.refl a, rfl, hme⟩
  | succ m ih =>
    intro s a h hm
    cases hme : algo.mustEvict s r with
    | false => exact ⟨s, [], a, by simp [Algo.evictLoop, hme], h, .none a, Sub.refl a, rfl, hme⟩
    | true =>
      obtain ⟨i, hi⟩ := h.pos_of_must hL hme
      obtain ⟨s1, x, k, c, h1, _, hp, hl, h3, h4, h5, _, h6⟩ := h.evict hi
      have hlen := (h.evict_perm h3 h4).length_eq
      rw [List.length_cons] at hlen
      obtain ⟨s', vs, a', f1, f2, f3, f4, f5, f6⟩ := ih h4 (by omega)
      refine ⟨s', x :: vs, a', ?_, f2, .one ⟨k, c, h.pos_lt hp, ?_, ?_, h3, rfl⟩ f3, f4.trans h6, f5.trans h5, f6⟩
      · have h1' : algo.evict s r = .ok s1 := h1
        simp [Algo.evictLoop, hme, h1', f1]
      · rw [bytes_eq_charge]; exact hp
      · intro j hj
        rw [bytes_eq_charge]; exact hl j hj

/-- A get that hits. -/
theorem get_hits (hsim : Simple sz n) (hi : Inv sz cs n p s) {k : Nat} {x : ObjId × Nat} (hx : x ∈ segs s k) {r : Req} (hid : r.id = x.1) (hsz : r.size = sz r.id) :
    ∃ s', algo.get s r = .ok (true, s') ∧ segs s' = fifoHit (lim cs n) n (segs s) k x := by
  obtain ⟨a, h, hs⟩ := hi
  rw [h.segs] at hx ⊢
  obtain ⟨s', h1, h2, h3, _⟩ := h.bump.find_hit hsim (fun k y hy => (hs k y hy).1) hx hid (by rw [(hs k x hx).1, hsz, hid]; rfl) true
  exact ⟨s', get_hit h1, h2.segs⟩

theorem get_rejected (hn : 1 ≤ n) (hi : Inv sz cs n p s) {r : Req} (hnc : r.id ∉ (cached s).ids)
    (ha : (admitsBase s.base r && decide (r.size ≤ cs / n)) = false) :
    ∃ s', algo.get s r = .ok (false, s') ∧ s'.qs = s.qs ∧ s'.n = s.n := by
  obtain ⟨a, h, hs⟩ := hi
  have h1 : algo.find (algo.bump s) r true = .ok (false, algo.bump s) := h.bump.find_miss (r := r) hnc true
  have h2 : (SFIFOv0.canInsert (algo.bump s) r).1 = false := by rw [h.bump.canInsert_fst hn]; exact ha
  have h3 : algo.canInsert (algo.bump s) r = (false, (SFIFOv0.canInsert (algo.bump s) r).2) := Prod.ext h2 rfl
  have h4 := canInsert_snd (algo.bump s) r
  exact ⟨_, get_reject h1 h3, h4.1, h4.2.1⟩

/-- A get that misses and is admitted. -/
theorem get_admitted (hn : 1 ≤ n) (hi : Inv sz cs n p s) {r : Req} (hok : Steady sz (cs / n) 0 p r) (hnc : r.id ∉ (cached s).ids)
    (ha : (admitsBase s.base r && decide (r.size ≤ cs / n)) = true) :
    ∃ s' vs a1 k, algo.get s r = .ok (false, s') ∧ EvictsAll n (segs s) vs a1 ∧ Target (lim cs n) n a1 r.size k ∧
      segs s' = put a1 k ((r.id, r.size) :: a1 k) ∧ (r.id, r.size) ∈ cached s' := by
  obtain ⟨a, h, hs⟩ := hi
  rw [h.segs]
  have hL : r.size ≤ cs / n := by
    simp only [Bool.and_eq_true, decide_eq_true_eq] at ha; exact ha.2
  have hu : r.size < u32 := by have := SLRUv0.Steady.u32 hok hL; omega
  have h1 : algo.find (algo.bump s) r true = .ok (false, algo.bump s) := h.bump.find_miss (r := r) hnc true
  have h2 : (SFIFOv0.canInsert (algo.bump s) r).1 = true := by rw [h.bump.canInsert_fst hn]; exact ha
  have h3 : algo.canInsert (algo.bump s) r = (true, (SFIFOv0.canInsert (algo.bump s) r).2) := Prod.ext h2 rfl
  have h4 := h.bump.canInsert r
  obtain ⟨s1, vs, a1, f1, f2, f3, f4, f5, f6⟩ := loop_spec (r := r) hL (algo.fuel (SFIFOv0.canInsert (algo.bump s) r).2) h4
    (by show _ ≤ count _; rw [h4.count_eq]; exact Nat.le_refl _)
  obtain ⟨s', k, g1, g2, g3, _, g5⟩ := f2.insert hn ((h.absent hnc).sub f4) hu hL f6
  exact ⟨s', vs, a1, k, get_accept h1 h3 f1 g1, f3, g2, g3.segs, g5.mem_iff.2 List.mem_cons_self⟩

theorem insert_perm (hn : 1 ≤ n) (hi : Inv sz cs n p s) {r : Req} (hok : Steady sz (cs / n) 0 p r) (hL : r.size + 0 ≤ cs / n) (hnc : r.id ∉ (cached s).ids)
    (hm : algo.mustEvict s r = false) : ∃ s', SFIFOv0.insert s r = .ok s' ∧ (cached s').Perm ((r.id, r.size % u32) :: cached s) := by
  obtain ⟨a, h, hs⟩ := hi
  have hu : r.size < u32 := by have := SLRUv0.Steady.u32 hok hL; omega
  obtain ⟨s', k, h1, _, h2, _, h3⟩ := h.insert hn (h.absent hnc) hu hL hm
  exact ⟨s', h1, by rw [Nat.mod_eq_of_lt hu]; exact h3⟩

theorem evict_inv (hi : Inv sz cs n p s) {i : Nat} (hb : 0 < charge 0 (segs s i)) :
    ∃ s' x, SFIFOv0.evict s = .ok s' ∧ toEvict s = some x.1 ∧ EvictsLowest n (segs s) x (segs s') ∧ (cached s).Perm (x :: cached s') := by
  obtain ⟨a, h, hs⟩ := hi
  rw [h.segs] at hb ⊢
  obtain ⟨s', x, k, c, h1, h2, h3, h4, h5, h6, _⟩ := h.evict hb
  refine ⟨s', x, h1, h2, ⟨k, c, h.pos_lt h3, ?_, ?_, h5, h6.segs⟩, h.evict_perm h5 h6⟩
  · rw [bytes_eq_charge]; exact h3
  · intro j hj
    rw [bytes_eq_charge]; exact h4 j hj

end
end Verif.SFIFOv0
