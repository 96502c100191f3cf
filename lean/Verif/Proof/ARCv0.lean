import Verif.Algo.ARCv0
import Verif.Spec.ARCLru
import Verif.Base.Medium
import Verif.Proof.LruList
/-!
# ARCv0 follows adaptive replacement with LRU caches as ghost lists
-/

namespace Verif.ARCv0
open Verif Verif.Spec Verif.Spec.Adaptive
open Verif.ARC (Arith)
variable {R : Arith}

def lists (s : State R) : Lists
  | .T1 => s.t1.order
  | .T2 => s.t2.order
  | .B1 => s.b1.order
  | .B2 => s.b2.order

def cached (s : State R) : Contents := s.t1.base.cached ++ s.t2.base.cached

/-- no object is on two lists -/
def Apart (a : Lists) : Prop := ∀ j k id, id ∈ (a j).ids → id ∈ (a k).ids → j = k

structure Rep (cs : Nat) (sz : ObjId → Nat) (p : Perms) (s : State R) (a : Lists) : Prop where
  csz : s.out.cacheSize = cs
  mdz : s.out.objMd = 0
  t1 : LL cs s.t1 (a .T1)
  t2 : LL cs s.t2 (a .T2)
  b1 : LL cs s.b1 (a .B1)
  b2 : LL cs s.b2 (a .B2)
  one : ∀ id, id ∈ (a .T1).ids → id ∉ (a .T2).ids
  cap : charge 0 (a .T1) + charge 0 (a .T2) ≤ cs
  sized : ∀ k, ∀ x ∈ a k, x.2 = sz x.1 ∧ x.2 < u32
  apart : p.ins = false → Apart a

def Inv (cs : Nat) (sz : ObjId → Nat) (p : Perms) (s : State R) : Prop := Rep cs sz p s (lists s)

theorem lists_eq {s : State R} {a : Lists} (h1 : s.t1.order = a .T1) (h2 : s.t2.order = a .T2) (h3 : s.b1.order = a .B1) (h4 : s.b2.order = a .B2) : lists s = a := by
  funext k
  cases k <;> assumption

section
variable {cs : Nat} {sz : ObjId → Nat} {p : Perms} {s : State R} {a : Lists}

theorem Rep.lists (h : Rep cs sz p s a) : lists s = a := lists_eq h.t1.order h.t2.order h.b1.order h.b2.order

theorem Rep.inv (h : Rep cs sz p s a) : Inv cs sz p s := by unfold Inv; rw [h.lists]; exact h

theorem inv_init (cs : Nat) (sz : ObjId → Nat) (p : Perms) (adm : Adm) : Inv cs sz p (init cs adm : State R) := by
  have hz : ∀ k, ARCv0.lists (init cs adm : State R) k = [] := by intro k; cases k <;> rfl
  refine ⟨rfl, rfl, ?_, ?_, ?_, ?_, ?_, ?_, ?_, ?_⟩
  · rw [hz]; exact LL.init cs
  · rw [hz]; exact LL.init cs
  · rw [hz]; exact LL.init cs
  · rw [hz]; exact LL.init cs
  · intro id h; rw [hz] at h; cases h
  · rw [hz, hz]; simp [charge]
  · intro k x h; rw [hz] at h; cases h
  · intro _ j k id h; rw [hz] at h; cases h

theorem Rep.cached (h : Rep cs sz p s a) : (cached s).Perm (a .T1 ++ a .T2) := h.t1.perm.symm.append h.t2.perm.symm

theorem Rep.mem (h : Rep cs sz p s a) (id : ObjId) : id ∈ (ARCv0.cached s).ids ↔ id ∈ (a .T1).ids ∨ id ∈ (a .T2).ids := by
  rw [(h.cached.map Prod.fst).mem_iff]
  simp [Contents.ids]

theorem Rep.total (h : Rep cs sz p s a) : charge 0 (ARCv0.cached s) = charge 0 (a .T1) + charge 0 (a .T2) := by
  rw [charge_perm h.cached, charge_app]

theorem Rep.nodup (h : Rep cs sz p s a) : (ARCv0.cached s).ids.Nodup := by
  have := (h.cached.map Prod.fst).nodup_iff
  refine this.2 ?_
  rw [List.map_append, List.nodup_append]
  exact ⟨h.t1.nodup, h.t2.nodup, fun x hx y hy e => h.one x hx (by rw [e]; exact hy)⟩

theorem Rep.frame (h : Rep cs sz p s a) (n : Nat) (ad : Adm) (q : R.P) (i1 i2 : Bool) (v : Int) :
    Rep cs sz p { s with out := { s.out with nReq := n, adm := ad }, p := q, inB1 := i1, inB2 := i2, vtime := v } a :=
  ⟨h.csz, h.mdz, h.t1, h.t2, h.b1, h.b2, h.one, h.cap, h.sized, h.apart⟩

theorem Rep.find_false (h : Rep cs sz p s a) (r : Req) : find s r false = .ok (decide (r.id ∈ (ARCv0.cached s).ids), s) := by
  simp only [find, h.t1.peek, h.t2.peek, Res.bind_ok, if_true, h.mem, Bool.decide_or]

/-! ### changing lists -/

theorem put_same (a : Lists) (k : Lst) (c : Contents) : put a k c k = c := by simp [put]
theorem put_other (a : Lists) {j k : Lst} (c : Contents) (h : j ≠ k) : put a k c j = a j := by simp [put, h]

theorem Apart.sub {a a' : Lists} (h : Apart a) (hs : ∀ k id, id ∈ (a' k).ids → id ∈ (a k).ids) : Apart a' :=
  fun j k id hj hk => h j k id (hs j id hj) (hs k id hk)

theorem ids_filter_ne {l : Contents} {id i : ObjId} : i ∈ Contents.ids (l.filter (fun y => y.1 ≠ id)) ↔ i ∈ l.ids ∧ i ≠ id := by
  simp only [Contents.ids, List.mem_map, List.mem_filter, decide_eq_true_eq]
  constructor
  · rintro ⟨x, ⟨h1, h2⟩, rfl⟩; exact ⟨⟨x, h1, rfl⟩, h2⟩
  · rintro ⟨⟨x, h1, rfl⟩, h2⟩; exact ⟨x, ⟨h1, h2⟩, rfl⟩

theorem charge_filter_le (l : Contents) (q : ObjId × Nat → Bool) : charge 0 (l.filter q) ≤ charge 0 l := by
  induction l with
  | nil => simp [charge]
  | cons x l ih =>
    simp only [List.filter_cons]
    split <;> simp only [charge] <;> omega

theorem charge_filter_ne {l : Contents} (hnd : l.ids.Nodup) {x : ObjId × Nat} (hx : x ∈ l) : charge 0 (l.filter (fun y => y.1 ≠ x.1)) + x.2 = charge 0 l := by
  induction l with
  | nil => cases hx
  | cons y l ih =>
    have hnd' : y.1 ∉ Contents.ids l ∧ (Contents.ids l).Nodup := by simpa [Contents.ids] using hnd
    rcases List.mem_cons.1 hx with rfl | hx
    · have : l.filter (fun y => y.1 ≠ x.1) = l := by
        rw [List.filter_eq_self]
        intro z hz
        simp only [ne_eq, decide_not, Bool.not_eq_eq_eq_not, Bool.not_true, decide_eq_false_iff_not]
        intro e
        exact hnd'.1 (by rw [← e]; exact List.mem_map_of_mem hz)
      rw [List.filter_cons, if_neg (by simp), this]
      simp only [charge]; omega
    · have hne : y.1 ≠ x.1 := fun e => hnd'.1 (by rw [e]; exact List.mem_map_of_mem hx)
      rw [List.filter_cons, if_pos (by simpa using hne)]
      have := ih hnd'.2 hx
      simp only [charge]; omega

/-! ### find -/

theorem Rep.find_none (h : Rep cs sz p s a) (r : Req) (hn : ∀ k, r.id ∉ (a k).ids) : find s r true = .ok (false, s) := by
  simp only [find, h.t1.peek, h.t2.peek, h.b1.peek, h.b2.peek, Res.bind_ok, hn, decide_false, Bool.or_false, Bool.true_eq_false, if_false, and_self, if_true]

/-- an object of B1 -/
theorem Rep.find_b1 (h : Rep cs sz p s a) (r : Req) (hb : r.id ∈ (a .B1).ids) :
    ∃ s', find s r true = .ok (decide (r.id ∈ (ARCv0.cached s).ids), s') ∧ Rep cs sz p s' (put a .B1 (without r.id (a .B1))) ∧
      s'.out = s.out ∧ s'.p = R.up s.p (charge 0 (a .B2) : Nat) (charge 0 (a .B1) : Nat) cs ∧ s'.inB1 = true ∧ s'.inB2 = false ∧ s'.vtime = s.out.nReq ∧
      s'.t1 = s.t1 ∧ s'.t2 = s.t2 := by
  obtain ⟨g, h1, h2⟩ := h.b1.remove r.id
  rw [decide_eq_true hb] at h1
  refine ⟨{ s with p := R.up s.p s.b2.base.occ s.b1.base.occ s.out.cacheSize, b1 := g, inB1 := true, inB2 := false, vtime := s.out.nReq }, ?_, ?_, rfl, ?_, rfl, rfl, rfl, rfl, rfl⟩
  · simp only [find, h.t1.peek, h.t2.peek, h.b1.peek, h.b2.peek, Res.bind_ok, hb, decide_true, Bool.true_or, Bool.true_eq_false, if_false, and_false, if_true,
      ghostHit, h1, h.mem, Bool.decide_or]
  · refine ⟨h.csz, h.mdz, h.t1, h.t2, by rw [put_same]; exact h2, h.b2, h.one, h.cap, ?_, ?_⟩
    · intro k x hx
      by_cases e : k = .B1
      · subst e; rw [put_same] at hx; exact h.sized _ x (List.mem_of_mem_filter hx)
      · rw [put_other _ _ e] at hx; exact h.sized k x hx
    · intro hp
      refine (h.apart hp).sub ?_
      intro k id hk
      by_cases e : k = .B1
      · subst e; rw [put_same] at hk; exact (ids_filter_ne.1 hk).1
      · rw [put_other _ _ e] at hk; exact hk
  · show R.up s.p s.b2.base.occ s.b1.base.occ s.out.cacheSize = _
    rw [h.b2.occ, h.b1.occ, h.csz]

/-- an object of B2 -/
theorem Rep.find_b2 (h : Rep cs sz p s a) (r : Req) (hn : r.id ∉ (a .B1).ids) (hb : r.id ∈ (a .B2).ids) :
    ∃ s', find s r true = .ok (decide (r.id ∈ (ARCv0.cached s).ids), s') ∧ Rep cs sz p s' (put a .B2 (without r.id (a .B2))) ∧
      s'.out = s.out ∧ s'.p = R.down s.p (charge 0 (a .B1) : Nat) (charge 0 (a .B2) : Nat) ∧ s'.inB1 = false ∧ s'.inB2 = true ∧ s'.vtime = s.out.nReq ∧
      s'.t1 = s.t1 ∧ s'.t2 = s.t2 := by
  obtain ⟨g, h1, h2⟩ := h.b2.remove r.id
  rw [decide_eq_true hb] at h1
  refine ⟨{ s with p := R.down s.p s.b1.base.occ s.b2.base.occ, b2 := g, inB1 := false, inB2 := true, vtime := s.out.nReq }, ?_, ?_, rfl, ?_, rfl, rfl, rfl, rfl, rfl⟩
  · simp only [find, h.t1.peek, h.t2.peek, h.b1.peek, h.b2.peek, Res.bind_ok, hb, hn, decide_true, decide_false, Bool.false_or, Bool.true_eq_false, if_false, and_false, if_true,
      ghostHit, h1, h.mem, Bool.decide_or, Bool.false_eq_true]
  · refine ⟨h.csz, h.mdz, h.t1, h.t2, h.b1, by rw [put_same]; exact h2, h.one, h.cap, ?_, ?_⟩
    · intro k x hx
      by_cases e : k = .B2
      · subst e; rw [put_same] at hx; exact h.sized _ x (List.mem_of_mem_filter hx)
      · rw [put_other _ _ e] at hx; exact h.sized k x hx
    · intro hp
      refine (h.apart hp).sub ?_
      intro k id hk
      by_cases e : k = .B2
      · subst e; rw [put_same] at hk; exact (ids_filter_ne.1 hk).1
      · rw [put_other _ _ e] at hk; exact hk
  · show R.down s.p s.b1.base.occ s.b2.base.occ = _
    rw [h.b2.occ, h.b1.occ]

theorem toFront_cons {l : Contents} (hnd : l.ids.Nodup) {x : ObjId × Nat} (hx : x ∈ l) : toFront l x.1 = x :: without x.1 l := by
  unfold toFront without
  have : l.filter (fun y => decide (y.1 = x.1)) = [x] := by
    induction l with
    | nil => cases hx
    | cons y l ih =>
      have hnd' : y.1 ∉ Contents.ids l ∧ (Contents.ids l).Nodup := by simpa [Contents.ids] using hnd
      rcases List.mem_cons.1 hx with rfl | hx
      · rw [List.filter_cons, if_pos (by simp), List.filter_eq_nil_iff.2]
        intro z hz e
        exact hnd'.1 (by rw [← of_decide_eq_true e]; exact List.mem_map_of_mem hz)
      · have hne : y.1 ≠ x.1 := fun e => hnd'.1 (by rw [e]; exact List.mem_map_of_mem hx)
        rw [List.filter_cons, if_neg (by simpa using hne)]
        exact ih hnd'.2 hx
  rw [this]; rfl

/-- a hit on an object that is not a ghost too -/
theorem Rep.find_hit (h : Rep cs sz p s a) (r : Req) (hok : Sized cs sz r) {k : Lst} {x : ObjId × Nat} (hk : k = .T1 ∨ k = .T2) (hx : x ∈ a k) (he : r.id = x.1)
    (hn1 : r.id ∉ (a .B1).ids) (hn2 : r.id ∉ (a .B2).ids) :
    ∃ s', find s r true = .ok (true, s') ∧ Rep cs sz p s' (Adaptive.hit a k x) ∧ s'.out = s.out ∧ s'.p = s.p ∧ s'.inB1 = false ∧ s'.inB2 = false ∧ s'.vtime = s.vtime := by
  have hxi : r.id ∈ (a k).ids := by rw [he]; exact List.mem_map_of_mem hx
  have hrs : r.size = x.2 := by rw [hok.1, (h.sized k x hx).1, he]
  have hlt := (h.sized k x hx).2
  have happ : p.ins = false → ∀ {a' : Lists}, (∀ j id, id ∈ (a' j).ids → (id ≠ x.1 ∧ id ∈ (a j).ids) ∨ (id = x.1 ∧ j = .T2)) → Apart a' := by
    intro hp a' hs i j id hi hj
    rcases hs i id hi with ⟨h1, h2⟩ | ⟨h1, h2⟩ <;> rcases hs j id hj with ⟨h3, h4⟩ | ⟨h3, h4⟩
    · exact h.apart hp i j id h2 h4
    · exact absurd h3 h1
    · exact absurd h1 h3
    · rw [h2, h4]
  rcases hk with rfl | rfl
  · have hn2' : r.id ∉ (a .T2).ids := h.one _ hxi
    obtain ⟨q, h1, h2⟩ := h.t1.remove r.id
    rw [decide_eq_true hxi] at h1
    obtain ⟨b, q2, h3, h4⟩ := h.t2.get r
    have hc := charge_filter_ne h.t1.nodup hx
    have hcap := h.cap
    have hnew : Experts.remember cs (a .T2) (r.id, r.size) = (r.id, r.size % u32) :: a .T2 := remember_new hn2' (by simp only [hrs]; omega)
    have hxe : (r.id, r.size % u32) = x := by rw [hrs, he, Nat.mod_eq_of_lt hlt]
    rw [hnew, hxe] at h4
    have e1 : Adaptive.hit a .T1 x .T1 = without r.id (a .T1) := by simp [Adaptive.hit, push, drop, put, he]
    have e2 : Adaptive.hit a .T1 x .T2 = x :: a .T2 := by simp [Adaptive.hit, push, drop, put]
    have e3 : Adaptive.hit a .T1 x .B1 = a .B1 := by simp [Adaptive.hit, push, drop, put]
    have e4 : Adaptive.hit a .T1 x .B2 = a .B2 := by simp [Adaptive.hit, push, drop, put]
    refine ⟨{ s with t1 := q, t2 := q2, inB1 := false, inB2 := false }, ?_, ⟨h.csz, h.mdz, by rw [e1]; exact h2, by rw [e2]; exact h4, by rw [e3]; exact h.b1,
      by rw [e4]; exact h.b2, ?_, ?_, ?_, ?_⟩, rfl, rfl, rfl, rfl, rfl⟩
    · simp only [find, h.t1.peek, h.t2.peek, h.b1.peek, h.b2.peek, Res.bind_ok, hxi, hn2', hn1, hn2, decide_true, decide_false, Bool.or_false, Bool.true_eq_false,
        Bool.false_eq_true, if_false, false_and, if_true, ARCv0.hit, h1, h3]
    · rw [e1, e2]
      intro id hid
      obtain ⟨k1, k2⟩ := ids_filter_ne.1 hid
      simp only [Contents.ids, List.map_cons, List.mem_cons, not_or]
      exact ⟨by rw [← he]; exact k2, h.one id k1⟩
    · rw [e1, e2]
      simp only [charge, without, he]; omega
    · intro j y hy
      cases j with
      | T1 => rw [e1] at hy; exact h.sized _ y (List.mem_of_mem_filter hy)
      | T2 =>
        rw [e2] at hy
        rcases List.mem_cons.1 hy with rfl | hy
        · exact h.sized _ _ hx
        · exact h.sized _ _ hy
      | B1 => rw [e3] at hy; exact h.sized _ _ hy
      | B2 => rw [e4] at hy; exact h.sized _ _ hy
    · intro hp
      refine happ hp ?_
      intro j id hj
      cases j with
      | T1 => rw [e1] at hj; obtain ⟨k1, k2⟩ := ids_filter_ne.1 hj; exact Or.inl ⟨by rw [← he]; exact k2, k1⟩
      | T2 =>
        rw [e2] at hj
        rcases List.mem_cons.1 hj with rfl | hj'
        · exact Or.inr ⟨rfl, rfl⟩
        · have hj'' : id ∈ (a .T2).ids := hj'
          exact Or.inl ⟨by rw [← he]; intro e; subst e; exact hn2' hj'', hj''⟩
      | B1 => rw [e3] at hj; exact Or.inl ⟨by rw [← he]; intro e; subst e; exact hn1 hj, hj⟩
      | B2 => rw [e4] at hj; exact Or.inl ⟨by rw [← he]; intro e; subst e; exact hn2 hj, hj⟩
  · have hn1' : r.id ∉ (a .T1).ids := fun hm => h.one _ hm hxi
    obtain ⟨q, h1, h2⟩ := h.t2.find r hxi
    rw [he, toFront_cons h.t2.nodup hx] at h2
    have e1 : Adaptive.hit a .T2 x .T1 = a .T1 := by simp [Adaptive.hit, push, drop, put]
    have e2 : Adaptive.hit a .T2 x .T2 = x :: without x.1 (a .T2) := by simp [Adaptive.hit, push, drop, put]
    have e3 : Adaptive.hit a .T2 x .B1 = a .B1 := by simp [Adaptive.hit, push, drop, put]
    have e4 : Adaptive.hit a .T2 x .B2 = a .B2 := by simp [Adaptive.hit, push, drop, put]
    have hc := charge_filter_ne h.t2.nodup hx
    have hcap := h.cap
    have hids : ∀ id, id ∈ Contents.ids (x :: without x.1 (a .T2)) → id = x.1 ∨ (id ≠ x.1 ∧ id ∈ (a .T2).ids) := by
      intro id hid
      rcases List.mem_cons.1 hid with rfl | hid
      · exact Or.inl rfl
      · obtain ⟨k1, k2⟩ := ids_filter_ne.1 hid; exact Or.inr ⟨k2, k1⟩
    refine ⟨{ s with t2 := q, inB1 := false, inB2 := false }, ?_, ⟨h.csz, h.mdz, by rw [e1]; exact h.t1, by rw [e2]; exact h2, by rw [e3]; exact h.b1,
      by rw [e4]; exact h.b2, ?_, ?_, ?_, ?_⟩, rfl, rfl, rfl, rfl, rfl⟩
    · simp only [find, h.t1.peek, h.t2.peek, h.b1.peek, h.b2.peek, Res.bind_ok, hxi, hn1', hn1, hn2, decide_true, decide_false, Bool.false_or, Bool.or_false, Bool.true_eq_false,
        Bool.false_eq_true, if_false, false_and, if_true, ARCv0.hit, h1]
    · rw [e1, e2]
      intro id hid hid2
      rcases hids id hid2 with rfl | ⟨_, h3⟩
      · exact hn1' (by rw [he]; exact hid)
      · exact h.one id hid h3
    · rw [e1, e2]
      simp only [charge, without]; omega
    · intro j y hy
      cases j with
      | T1 => rw [e1] at hy; exact h.sized _ y hy
      | T2 =>
        rw [e2] at hy
        rcases List.mem_cons.1 hy with rfl | hy
        · exact h.sized _ _ hx
        · exact h.sized _ _ (List.mem_of_mem_filter hy)
      | B1 => rw [e3] at hy; exact h.sized _ _ hy
      | B2 => rw [e4] at hy; exact h.sized _ _ hy
    · intro hp
      refine happ hp ?_
      intro j id hj
      cases j with
      | T1 => rw [e1] at hj; exact Or.inl ⟨by rw [← he]; intro e; subst e; exact hn1' hj, hj⟩
      | T2 =>
        rw [e2] at hj
        rcases hids id hj with rfl | ⟨h2, h3⟩
        · exact Or.inr ⟨rfl, rfl⟩
        · exact Or.inl ⟨h2, h3⟩
      | B1 => rw [e3] at hj; exact Or.inl ⟨by rw [← he]; intro e; subst e; exact hn1 hj, hj⟩
      | B2 => rw [e4] at hj; exact Or.inl ⟨by rw [← he]; intro e; subst e; exact hn2 hj, hj⟩

/-! ### insert and remove -/

theorem Rep.insert_spec (h : Rep cs sz p s a) (r : Req) (hok : Sized cs sz r) (hr : charge 0 (a .T1) + charge 0 (a .T2) + r.size ≤ cs)
    (hn1 : r.id ∉ (a .T1).ids) (hn2 : r.id ∉ (a .T2).ids) (hg : p.ins = false → r.id ∉ (a .B1).ids ∧ r.id ∉ (a .B2).ids) :
    ∃ s', insert s r = .ok s' ∧ Rep cs sz p s' (push a (if afterGhostHit s then .T2 else .T1) (r.id, r.size)) ∧
      s'.out = s.out ∧ s'.p = s.p ∧ s'.inB1 = (s.inB1 && !afterGhostHit s) ∧ s'.inB2 = (s.inB2 && !afterGhostHit s) ∧ s'.vtime = (if afterGhostHit s then -1 else s.vtime) := by
  have hlt : r.size < u32 := hok.2 (by omega)
  have hm : r.size % u32 = r.size := Nat.mod_eq_of_lt hlt
  have hap : p.ins = false → ∀ k, Apart (push a k (r.id, r.size)) := by
    intro hp k i j id hi hj
    have key : ∀ i, id ∈ (push a k (r.id, r.size) i).ids → (i = k ∧ id = r.id) ∨ (id ∈ (a i).ids ∧ id ≠ r.id) := by
      intro i hi
      have hno : id ∈ (a i).ids → id ≠ r.id := by
        rintro hm rfl
        cases i with
        | T1 => exact hn1 hm
        | T2 => exact hn2 hm
        | B1 => exact (hg hp).1 hm
        | B2 => exact (hg hp).2 hm
      by_cases e : i = k
      · subst e
        rw [push, put_same] at hi
        rcases List.mem_cons.1 hi with h1 | h1
        · exact Or.inl ⟨rfl, h1⟩
        · exact Or.inr ⟨h1, hno h1⟩
      · rw [push, put_other _ _ e] at hi
        exact Or.inr ⟨hi, hno hi⟩
    rcases key i hi with ⟨h1, h2⟩ | ⟨h1, h2⟩ <;> rcases key j hj with ⟨h3, h4⟩ | ⟨h3, h4⟩
    · rw [h1, h3]
    · exact absurd h2 h4
    · exact absurd h4 h2
    · exact h.apart hp i j id h1 h3
  have hsz : ∀ k, ∀ j, ∀ x ∈ push a k (r.id, r.size) j, x.2 = sz x.1 ∧ x.2 < u32 := by
    intro k j x hx
    by_cases e : j = k
    · subst e
      rw [push, put_same] at hx
      rcases List.mem_cons.1 hx with rfl | hx
      · exact ⟨hok.1, hlt⟩
      · exact h.sized _ x hx
    · rw [push, put_other _ _ e] at hx
      exact h.sized _ x hx
  cases hg : afterGhostHit s with
  | true =>
    obtain ⟨q, h1, h2⟩ := h.t2.insert r hn2 (by omega)
    rw [hm] at h2
    refine ⟨{ s with t2 := q, inB1 := false, inB2 := false, vtime := -1 }, by simp [ARCv0.insert, hg, h1], ?_, rfl, rfl, by simp, by simp, rfl⟩
    refine ⟨h.csz, h.mdz, h.t1, h2, h.b1, h.b2, ?_, ?_, hsz _, fun hp => hap hp _⟩
    · intro id hid hid2
      rcases List.mem_cons.1 hid2 with h3 | h3
      · exact hn1 (by rw [← show id = r.id from h3]; exact hid)
      · exact h.one id hid h3
    · show charge 0 (a .T1) + charge 0 ((r.id, r.size) :: a .T2) ≤ cs
      simp only [charge]; omega
  | false =>
    obtain ⟨q, h1, h2⟩ := h.t1.insert r hn1 (by omega)
    rw [hm] at h2
    refine ⟨{ s with t1 := q }, by simp [ARCv0.insert, hg, h1], ?_, rfl, rfl, by simp, by simp, rfl⟩
    refine ⟨h.csz, h.mdz, h2, h.t2, h.b1, h.b2, ?_, ?_, hsz _, fun hp => hap hp _⟩
    · intro id hid
      rcases List.mem_cons.1 hid with h3 | h3
      · rw [show id = r.id from h3]; exact hn2
      · exact h.one id h3
    · show charge 0 ((r.id, r.size) :: a .T1) + charge 0 (a .T2) ≤ cs
      simp only [charge]; omega

theorem Rep.remove_spec (h : Rep cs sz p s a) (id : ObjId) :
    ∃ s', remove s id = .ok (decide (id ∈ (ARCv0.cached s).ids), s') ∧
      Rep cs sz p s' (put (put a .T1 (without id (a .T1))) .T2 (without id (a .T2))) ∧
      s' = { s with t1 := s'.t1, t2 := s'.t2 } := by
  obtain ⟨q1, h1, h2⟩ := h.t1.remove id
  obtain ⟨q2, k1, k2⟩ := h.t2.remove id
  have hs : ∀ k x, x ∈ put (put a .T1 (without id (a .T1))) .T2 (without id (a .T2)) k → x ∈ a k := by
    intro k x hx
    cases k with
    | T1 => exact List.mem_of_mem_filter (show x ∈ without id (a .T1) from hx)
    | T2 => exact List.mem_of_mem_filter (show x ∈ without id (a .T2) from hx)
    | B1 => exact hx
    | B2 => exact hx
  have hs' : ∀ k i, i ∈ (put (put a .T1 (without id (a .T1))) .T2 (without id (a .T2)) k).ids → i ∈ (a k).ids := by
    intro k i hi
    obtain ⟨x, hx, rfl⟩ := List.mem_map.1 hi
    exact List.mem_map_of_mem (hs k x hx)
  refine ⟨{ s with t1 := q1, t2 := q2 }, ?_, ⟨h.csz, h.mdz, h2, k2, h.b1, h.b2, ?_, ?_, ?_, ?_⟩, rfl⟩
  · simp only [remove, h1, k1, Res.bind_ok, h.mem, Bool.decide_or]
  · intro i h3 h4
    exact h.one i (hs' .T1 i h3) (hs' .T2 i h4)
  · have e1 := charge_filter_le (a .T1) (fun y => y.1 ≠ id)
    have e2 := charge_filter_le (a .T2) (fun y => y.1 ≠ id)
    have := h.cap
    show charge 0 (without id (a .T1)) + charge 0 (without id (a .T2)) ≤ cs
    simp only [without]
    omega
  · intro k x hx; exact h.sized k x (hs k x hx)
  · intro hp; exact (h.apart hp).sub hs'

/-! ### eviction -/

theorem occ_pos {x : LRU.State} {l : Contents} (h : LL cs x l) : x.base.occ > 0 ↔ 0 < bytes 0 l := by
  rw [h.occ, bytes_eq_charge]; omega

theorem Rep.fromT1_iff (h : Rep cs sz p s a) : fromT1 s = true ↔ FromT1 0 (fun n => R.gt n s.p) (fun n => R.eq n s.p) s.inB2 a := by
  unfold fromT1 overTarget FromT1
  simp only [Bool.or_eq_true, Bool.and_eq_true, decide_eq_true_eq, h.t1.occ, h.t2.occ, bytes_eq_charge]
  constructor
  · rintro (⟨h1, h2⟩ | h1)
    · exact Or.inl ⟨by omega, h2⟩
    · exact Or.inr (by omega)
  · rintro (⟨h1, h2⟩ | h1)
    · exact Or.inl ⟨by omega, h2⟩
    · exact Or.inr (by omega)

theorem oldest_spec {x : LRU.State} {c : Contents} {y : ObjId × Nat} (h : LL cs x (c ++ [y])) : ∃ o : Req, oldest x = .ok o ∧ (o.id, o.size) = y := by
  obtain ⟨_, o, _, _, h3, h4, h5, _⟩ := h.last ⟨0, 0, 0⟩
  exact ⟨o.toReq, by simp [oldest, h3, h4], h5⟩

/-- One object leaves `k` for `j`. -/
theorem Rep.demote (h : Rep cs sz p s a) {k j : Lst} {c : Contents} {x : ObjId × Nat} (hk : k = .T1 ∧ j = .B1 ∨ k = .T2 ∧ j = .B2) (e : a k = c ++ [x])
    {s' : State R} (ho : s'.out = s.out) (hl : ∀ i, i ≠ k → i ≠ j → (match i with | .T1 => s'.t1 = s.t1 | .T2 => s'.t2 = s.t2 | .B1 => s'.b1 = s.b1 | .B2 => s'.b2 = s.b2))
    (h1 : match k with | .T1 => LL cs s'.t1 c | .T2 => LL cs s'.t2 c | .B1 => False | .B2 => False)
    (h2 : match j with | .B1 => LL cs s'.b1 (Experts.remember cs (a .B1) x) | .B2 => LL cs s'.b2 (Experts.remember cs (a .B2) x) | .T1 => False | .T2 => False) :
    Rep cs sz p s' (put (put a k c) j (Experts.remember cs (a j) x)) := by
  have hxk : x ∈ a k := by rw [e]; simp
  have hxs := h.sized k x hxk
  have hxe : (x.1, x.2 % u32) = x := by rw [Nat.mod_eq_of_lt hxs.2]
  have hsub : ∀ i y, y ∈ put (put a k c) j (Experts.remember cs (a j) x) i → (y ∈ a i ∧ (i = k → y ∈ c)) ∨ (i = j ∧ y = x) := by
    intro i y hy
    by_cases ej : i = j
    · subst ej
      rw [put_same] at hy
      rcases remember_sub hy with h3 | h3
      · exact Or.inr ⟨rfl, by rw [h3, hxe]⟩
      · refine Or.inl ⟨h3, fun e' => ?_⟩
        subst e'
        rcases hk with ⟨h4, h5⟩ | ⟨h4, h5⟩ <;> (rw [h4] at h5; cases h5)
    · rw [put_other _ _ ej] at hy
      by_cases ek : i = k
      · subst ek
        rw [put_same] at hy
        exact Or.inl ⟨by rw [e]; exact List.mem_append_left _ hy, fun _ => hy⟩
      · rw [put_other _ _ ek] at hy
        exact Or.inl ⟨hy, fun e' => absurd e' ek⟩
  have hsz : ∀ i, ∀ y ∈ put (put a k c) j (Experts.remember cs (a j) x) i, y.2 = sz y.1 ∧ y.2 < u32 := by
    intro i y hy
    rcases hsub i y hy with ⟨h3, _⟩ | ⟨_, rfl⟩
    · exact h.sized i y h3
    · exact hxs
  have hnd : (c ++ [x]).ids.Nodup := by
    rw [← e]
    rcases hk with ⟨rfl, _⟩ | ⟨rfl, _⟩
    · exact h.t1.nodup
    · exact h.t2.nodup
  have hxc : x.1 ∉ Contents.ids c := by
    intro hm
    rw [ids_append] at hnd
    exact (List.nodup_append.1 hnd).2.2 _ hm x.1 (by simp [Contents.ids]) rfl
  have hap : p.ins = false → Apart (put (put a k c) j (Experts.remember cs (a j) x)) := by
    intro hp i i' id hi hi'
    have key : ∀ i, id ∈ (put (put a k c) j (Experts.remember cs (a j) x) i).ids → (id ∈ (a i).ids ∧ id ≠ x.1) ∨ (i = j ∧ id = x.1) := by
      intro i hi
      obtain ⟨y, hy, rfl⟩ := List.mem_map.1 hi
      rcases hsub i y hy with ⟨h3, h4⟩ | ⟨h3, rfl⟩
      · by_cases e' : y.1 = x.1
        · right
          have := h.apart hp i k y.1 (List.mem_map_of_mem h3) (by rw [e']; exact List.mem_map_of_mem hxk)
          exact absurd (by rw [← e']; exact List.mem_map_of_mem (h4 this)) hxc
        · exact Or.inl ⟨List.mem_map_of_mem h3, e'⟩
      · exact Or.inr ⟨h3, rfl⟩
    rcases key i hi with ⟨h3, h4⟩ | ⟨h3, h4⟩ <;> rcases key i' hi' with ⟨h5, h6⟩ | ⟨h5, h6⟩
    · exact h.apart hp i i' id h3 h5
    · exact absurd h6 h4
    · exact absurd h4 h6
    · rw [h3, h5]
  have hcap := h.cap
  rcases hk with ⟨rfl, rfl⟩ | ⟨rfl, rfl⟩
  · rw [e, charge_app] at hcap
    refine ⟨by rw [ho]; exact h.csz, by rw [ho]; exact h.mdz, h1, ?_, h2, ?_, ?_, ?_, hsz, hap⟩
    · have := hl .T2 (by simp) (by simp); simp only at this; rw [this]; exact h.t2
    · have := hl .B2 (by simp) (by simp); simp only at this; rw [this]; exact h.b2
    · intro id hid
      exact h.one id (by rw [e, ids_append]; exact List.mem_append_left _ hid)
    · show charge 0 c + charge 0 (a .T2) ≤ cs
      omega
  · rw [e, charge_app] at hcap
    refine ⟨by rw [ho]; exact h.csz, by rw [ho]; exact h.mdz, ?_, h1, ?_, h2, ?_, ?_, hsz, hap⟩
    · have := hl .T1 (by simp) (by simp); simp only at this; rw [this]; exact h.t1
    · have := hl .B1 (by simp) (by simp); simp only at this; rw [this]; exact h.b1
    · intro id hid hid2
      exact h.one id hid (by rw [e, ids_append]; exact List.mem_append_left _ hid2)
    · show charge 0 (a .T1) + charge 0 c ≤ cs
      omega

/-- a list gets shorter at its old end -/
theorem Rep.shorten (h : Rep cs sz p s a) {k : Lst} {c d : Contents} (e : a k = c ++ d) {s' : State R} (ho : s'.out = s.out)
    (hl : ∀ i, i ≠ k → (match i with | .T1 => s'.t1 = s.t1 | .T2 => s'.t2 = s.t2 | .B1 => s'.b1 = s.b1 | .B2 => s'.b2 = s.b2))
    (h1 : match k with | .T1 => LL cs s'.t1 c | .T2 => LL cs s'.t2 c | .B1 => LL cs s'.b1 c | .B2 => LL cs s'.b2 c) :
    Rep cs sz p s' (put a k c) := by
  have hs : ∀ i y, y ∈ put a k c i → y ∈ a i := by
    intro i y hy
    by_cases ek : i = k
    · subst ek; rw [put_same] at hy; rw [e]; exact List.mem_append_left _ hy
    · rw [put_other _ _ ek] at hy; exact hy
  have hs' : ∀ i id, id ∈ (put a k c i).ids → id ∈ (a i).ids := by
    intro i id hi
    obtain ⟨x, hx, rfl⟩ := List.mem_map.1 hi
    exact List.mem_map_of_mem (hs i x hx)
  have hch : ∀ i, charge 0 (put a k c i) ≤ charge 0 (a i) := by
    intro i
    by_cases ek : i = k
    · subst ek; rw [put_same, e, charge_app]; omega
    · rw [put_other _ _ ek]; exact Nat.le_refl _
  have g : ∀ i : Lst, (match i with | .T1 => LL cs s'.t1 (put a k c .T1) | .T2 => LL cs s'.t2 (put a k c .T2) | .B1 => LL cs s'.b1 (put a k c .B1) | .B2 => LL cs s'.b2 (put a k c .B2)) := by
    intro i
    by_cases ek : i = k
    · subst ek; cases i <;> exact h1
    · have := hl i ek
      cases i <;> simp only at this ⊢ <;> rw [this, put_other _ _ ek]
      · exact h.t1
      · exact h.t2
      · exact h.b1
      · exact h.b2
  refine ⟨by rw [ho]; exact h.csz, by rw [ho]; exact h.mdz, g .T1, g .T2, g .B1, g .B2, ?_, ?_, ?_, ?_⟩
  · intro id h2 h3; exact h.one id (hs' _ id h2) (hs' _ id h3)
  · have := hch .T1; have := hch .T2; have := h.cap; omega
  · intro i y hy; exact h.sized i y (hs i y hy)
  · intro hp; exact (h.apart hp).sub hs'

/-- only the lists differ -/
def Same (s s' : State R) : Prop := s'.out = s.out ∧ s'.p = s.p ∧ s'.inB1 = s.inB1 ∧ s'.inB2 = s.inB2 ∧ s'.vtime = s.vtime

theorem Same.trans {s s' s'' : State R} (h : Same s s') (h' : Same s' s'') : Same s s'' :=
  ⟨h'.1.trans h.1, h'.2.1.trans h.2.1, h'.2.2.1.trans h.2.2.1, h'.2.2.2.1.trans h.2.2.2.1, h'.2.2.2.2.trans h.2.2.2.2⟩

theorem Rep.replace_spec (h : Rep cs sz p s a) (r : Req) (hpos : 0 < charge 0 (a .T1) + charge 0 (a .T2)) :
    ∃ s' a' x, replace s r = .ok s' ∧ Rep cs sz p s' a' ∧ ReplacesLru cs (fun n => R.gt n s.p) (fun n => R.eq n s.p) s.inB2 a x a' ∧ Same s s' ∧
      (a .T1 ++ a .T2).Perm (x :: (a' .T1 ++ a' .T2)) ∧ (0 < charge 0 (a .T2) → toReplace s = some x.1) := by
  cases hf : fromT1 s with
  | true =>
    have hF := h.fromT1_iff.1 hf
    have h0 : 0 < charge 0 (a .T1) := by
      rcases hF with ⟨h1, _⟩ | h1
      · rw [bytes_eq_charge] at h1; exact h1
      · rw [bytes_eq_charge] at h1; omega
    obtain ⟨c, x, e⟩ := exists_last h0
    have hL : LL cs s.t1 (c ++ [x]) := by rw [← e]; exact h.t1
    obtain ⟨q, o, h1, h2, h3, _⟩ := hL.last r
    obtain ⟨o', k1, k2⟩ := oldest_spec hL
    obtain ⟨b, g, h4, h5⟩ := h.b1.get o'
    rw [k2] at h5
    refine ⟨{ s with t1 := q, b1 := g }, put (put a .T1 c) .B1 (Experts.remember cs (a .B1) x), x, ?_, ?_, Or.inl ⟨hF, c, e, rfl⟩, ⟨rfl, rfl, rfl, rfl, rfl⟩, ?_, ?_⟩
    · simp only [replace, hf, if_true, k1, Res.bind_ok, h4, h1]
    · refine h.demote (k := .T1) (j := .B1) (Or.inl ⟨rfl, rfl⟩) e rfl ?_ h2 h5
      intro i hi hj
      cases i with
      | T1 => exact absurd rfl hi
      | T2 => rfl
      | B1 => exact absurd rfl hj
      | B2 => rfl
    · show (a .T1 ++ a .T2).Perm (x :: (c ++ a .T2))
      rw [e, List.append_assoc]
      exact List.perm_middle
    · intro ht2
      have : overTarget s = true := by
        simp only [fromT1, h.t2.occ, Bool.or_eq_true, decide_eq_true_eq] at hf
        rcases hf with hf | hf
        · exact hf
        · omega
      simp only [toReplace, this, if_true, h3]
  | false =>
    have hF : ¬ FromT1 0 (fun n => R.gt n s.p) (fun n => R.eq n s.p) s.inB2 a := fun hh => by rw [h.fromT1_iff.2 hh] at hf; cases hf
    have h0 : 0 < charge 0 (a .T2) := by
      rcases Nat.eq_zero_or_pos (charge 0 (a .T2)) with h1 | h1
      · exact absurd (Or.inr (by rw [bytes_eq_charge]; exact h1)) hF
      · exact h1
    obtain ⟨c, x, e⟩ := exists_last h0
    have hL : LL cs s.t2 (c ++ [x]) := by rw [← e]; exact h.t2
    obtain ⟨q, o, h1, h2, h3, _⟩ := hL.last r
    obtain ⟨o', k1, k2⟩ := oldest_spec hL
    obtain ⟨b, g, h4, h5⟩ := h.b2.get o'
    rw [k2] at h5
    refine ⟨{ s with t2 := q, b2 := g }, put (put a .T2 c) .B2 (Experts.remember cs (a .B2) x), x, ?_, ?_, Or.inr ⟨hF, c, e, rfl⟩, ⟨rfl, rfl, rfl, rfl, rfl⟩, ?_, ?_⟩
    · simp only [replace, hf, Bool.false_eq_true, if_false, k1, Res.bind_ok, h1, h4]
    · refine h.demote (k := .T2) (j := .B2) (Or.inr ⟨rfl, rfl⟩) e rfl ?_ h2 h5
      intro i hi hj
      cases i with
      | T1 => rfl
      | T2 => exact absurd rfl hi
      | B1 => rfl
      | B2 => exact absurd rfl hj
    · show (a .T1 ++ a .T2).Perm (x :: (a .T1 ++ c))
      rw [e, ← List.append_assoc]
      exact List.perm_append_singleton _ _
    · intro _
      have : overTarget s = false := by
        simp only [fromT1, Bool.or_eq_false_iff] at hf
        exact hf.1
      simp only [toReplace, this, Bool.false_eq_true, if_false, h3]

theorem Rep.shrink_spec (h : Rep cs sz p s a) (r : Req) (hlt : charge 0 (a .T1) + charge 0 (a .B1) + charge 0 (a .T2) < 2 * cs) :
    ∀ n (l : Contents) (q : LRU.State), LL cs q l → l.length < n →
      ∃ q' rest gone, shrinkB2 s r n q = .ok q' ∧ LL cs q' rest ∧ l = rest ++ gone ∧
        charge 0 (a .T1) + charge 0 (a .B1) + charge 0 (a .T2) + charge 0 rest < 2 * cs ∧
        ∀ y more, gone = y :: more → 2 * cs ≤ charge 0 (a .T1) + charge 0 (a .B1) + charge 0 (a .T2) + charge 0 (rest ++ [y]) := by
  intro n
  induction n with
  | zero => intro l q _ hl; omega
  | succ n ih =>
    intro l q hq hl
    by_cases hc : charge 0 (a .T1) + charge 0 (a .B1) + charge 0 (a .T2) + charge 0 l < 2 * cs
    · refine ⟨q, l, [], ?_, hq, by simp, hc, by simp⟩
      rw [shrinkB2, if_neg]
      rw [h.t1.occ, h.b1.occ, h.t2.occ, hq.occ, h.csz]; omega
    · obtain ⟨c, y, rfl⟩ := exists_last (l := l) (by omega)
      obtain ⟨q1, _, h1, h2, _⟩ := hq.last r
      obtain ⟨q', rest, gone, k1, k2, k3, k4, k5⟩ := ih c q1 h2 (by simp at hl; omega)
      refine ⟨q', rest, gone ++ [y], ?_, k2, by rw [k3, List.append_assoc], k4, ?_⟩
      · rw [shrinkB2, if_pos, h1, Res.bind_ok, k1]
        rw [h.t1.occ, h.b1.occ, h.t2.occ, hq.occ, h.csz]; omega
      · intro z more e
        cases gone with
        | nil =>
          simp only [List.nil_append, List.cons.injEq] at e
          rw [← e.1]
          rw [k3, List.append_nil] at hc
          omega
        | cons w gone =>
          simp only [List.cons_append, List.cons.injEq] at e
          rw [← e.1]
          exact k5 w gone rfl

theorem Rep.evictMiss_spec (h : Rep cs sz p s a) (r : Req) (hpos : 0 < charge 0 (a .T1) + charge 0 (a .T2)) (h0 : 0 < r.size) (hle : r.size ≤ cs) :
    ∃ s' a' x, evictMiss s r = .ok s' ∧ Rep cs sz p s' a' ∧ MissEvictsLru cs r.size (fun n => R.gt n s.p) (fun n => R.eq n s.p) s.inB2 a x a' ∧ Same s s' ∧
      (a .T1 ++ a .T2).Perm (x :: (a' .T1 ++ a' .T2)) ∧ (0 < charge 0 (a .T2) → toEvictMiss s r = some x.1) := by
  by_cases hA : charge 0 (a .T1) + charge 0 (a .B1) + r.size > cs
  · have hA' : s.t1.base.occ + s.b1.base.occ + r.size > (s.out.cacheSize : Int) := by rw [h.t1.occ, h.b1.occ, h.csz]; omega
    have hA2 : bytes 0 (a .T1) + bytes 0 (a .B1) + r.size > cs := by simp only [bytes_eq_charge]; exact hA
    by_cases hB : 0 < charge 0 (a .B1)
    · have hB' : s.b1.base.occ > 0 := by rw [h.b1.occ]; omega
      have hB2 : 0 < bytes 0 (a .B1) := by simp only [bytes_eq_charge]; exact hB
      obtain ⟨c, y, e⟩ := exists_last hB
      have hL : LL cs s.b1 (c ++ [y]) := by rw [← e]; exact h.b1
      obtain ⟨g, _, h1, h2, _⟩ := hL.last r
      have hR : Rep cs sz p { s with b1 := g } (put a .B1 c) := by
        refine h.shorten (k := .B1) e rfl ?_ h2
        intro i hi
        cases i with
        | T1 => rfl
        | T2 => rfl
        | B1 => exact absurd rfl hi
        | B2 => rfl
      obtain ⟨s', a', x, k1, k2, k3, k4, k5, k6⟩ := hR.replace_spec r hpos
      refine ⟨s', a', x, ?_, k2, ?_, k4, k5, ?_⟩
      · simp only [evictMiss, hA', hB', if_true, h1, Res.bind_ok, k1]
      · unfold MissEvictsLru
        rw [if_pos hA2, if_pos hB2]
        exact ⟨y, _, ⟨c, e, rfl⟩, k3⟩
      · intro ht
        simp only [toEvictMiss, hA', hB', if_true]
        exact k6 ht
    · have hB' : ¬ s.b1.base.occ > 0 := by rw [h.b1.occ]; omega
      have hB2 : ¬ 0 < bytes 0 (a .B1) := by simp only [bytes_eq_charge]; exact hB
      obtain ⟨c, x, e⟩ := exists_last (l := a .T1) (by omega)
      have hL : LL cs s.t1 (c ++ [x]) := by rw [← e]; exact h.t1
      obtain ⟨q, _, h1, h2, h3, _⟩ := hL.last r
      refine ⟨{ s with t1 := q }, put a .T1 c, x, ?_, ?_, ?_, ⟨rfl, rfl, rfl, rfl, rfl⟩, ?_, ?_⟩
      · simp only [evictMiss, hA', hB', if_true, if_false, h1, Res.bind_ok]
      · refine h.shorten (k := .T1) e rfl ?_ h2
        intro i hi
        cases i with
        | T1 => exact absurd rfl hi
        | T2 => rfl
        | B1 => rfl
        | B2 => rfl
      · unfold MissEvictsLru
        rw [if_pos hA2, if_neg hB2]
        exact ⟨c, e, rfl⟩
      · show (a .T1 ++ a .T2).Perm (x :: (c ++ a .T2))
        rw [e, List.append_assoc]
        exact List.perm_middle
      · intro _
        simp only [toEvictMiss, hA', hB', if_true, if_false, h3]
  · have hA' : ¬ s.t1.base.occ + s.b1.base.occ + r.size > (s.out.cacheSize : Int) := by rw [h.t1.occ, h.b1.occ, h.csz]; omega
    have hA2 : ¬ bytes 0 (a .T1) + bytes 0 (a .B1) + r.size > cs := by simp only [bytes_eq_charge]; exact hA
    have hle2 := h.t2.le
    obtain ⟨g, rest, gone, h1, h2, h3, h4, h5⟩ := h.shrink_spec r (by omega) (s.b2.base.tbl.length + 1) (a .B2) s.b2 h.b2 (by rw [h.b2.len]; omega)
    have hR : Rep cs sz p { s with b2 := g } (put a .B2 rest) := by
      refine h.shorten (k := .B2) h3 rfl ?_ h2
      intro i hi
      cases i with
      | T1 => rfl
      | T2 => rfl
      | B1 => rfl
      | B2 => exact absurd rfl hi
    obtain ⟨s', a', x, k1, k2, k3, k4, k5, k6⟩ := hR.replace_spec r hpos
    refine ⟨s', a', x, ?_, k2, ?_, k4, k5, ?_⟩
    · simp only [evictMiss, hA', if_false, h1, Res.bind_ok, k1]
    · unfold MissEvictsLru
      rw [if_neg hA2]
      refine ⟨put a .B2 rest, ⟨rest, gone, h3, rfl, ?_, ?_⟩, k3⟩
      · simp only [bytes_eq_charge]; exact h4
      · simp only [bytes_eq_charge]; exact h5
    · intro ht
      simp only [toEvictMiss, hA', if_false]
      exact k6 ht

/-- the rule by which the state evicts -/
def Rule (cs : Nat) (s : State R) (size : Nat) : Lists → ObjId × Nat → Lists → Prop :=
  if afterGhostHit s then ReplacesLru cs (fun n => R.gt n s.p) (fun n => R.eq n s.p) s.inB2
  else MissEvictsLru cs size (fun n => R.gt n s.p) (fun n => R.eq n s.p) s.inB2

theorem Same.after {s s' : State R} (h : Same s s') : afterGhostHit s' = afterGhostHit s := by
  unfold afterGhostHit; rw [h.1, h.2.2.1, h.2.2.2.1, h.2.2.2.2]

theorem Same.rule {s s' : State R} (h : Same s s') (n : Nat) : Rule cs s' n = Rule cs s n := by
  unfold Rule; rw [h.after, h.2.1, h.2.2.2.1]

theorem Rep.evict_spec (h : Rep cs sz p s a) (r : Req) (hpos : 0 < charge 0 (a .T1) + charge 0 (a .T2)) (h0 : 0 < r.size) (hle : r.size ≤ cs) :
    ∃ s' a' x, evict s r = .ok s' ∧ Rep cs sz p s' a' ∧ Rule cs s r.size a x a' ∧ Same s s' ∧
      (a .T1 ++ a .T2).Perm (x :: (a' .T1 ++ a' .T2)) ∧ (0 < charge 0 (a .T2) → toEvict s r = some x.1) := by
  unfold Rule evict toEvict
  cases afterGhostHit s with
  | true => exact h.replace_spec r hpos
  | false => exact h.evictMiss_spec r hpos h0 hle

/-- what an eviction can put on a ghost list is the victim -/
theorem ReplacesLru_sub {gt eq : Nat → Bool} {i2 : Bool} {a a' : Lists} {x : ObjId × Nat} (h : ReplacesLru cs gt eq i2 a x a') (k : Lst) (id : ObjId)
    (hk : id ∈ (a' k).ids) : id = x.1 ∨ id ∈ (a k).ids := by
  obtain ⟨y, hy, rfl⟩ := List.mem_map.1 hk
  rcases h with ⟨_, c, e, rfl⟩ | ⟨_, c, e, rfl⟩
  · cases k with
    | T1 => right; rw [e]; exact List.mem_map_of_mem (List.mem_append_left _ (show y ∈ c from hy))
    | T2 => right; exact List.mem_map_of_mem hy
    | B1 =>
      rcases remember_sub (show y ∈ Experts.remember cs (a .B1) x from hy) with h | h
      · left; rw [h]
      · right; exact List.mem_map_of_mem h
    | B2 => right; exact List.mem_map_of_mem hy
  · cases k with
    | T1 => right; exact List.mem_map_of_mem hy
    | T2 => right; rw [e]; exact List.mem_map_of_mem (List.mem_append_left _ (show y ∈ c from hy))
    | B1 => right; exact List.mem_map_of_mem hy
    | B2 =>
      rcases remember_sub (show y ∈ Experts.remember cs (a .B2) x from hy) with h | h
      · left; rw [h]
      · right; exact List.mem_map_of_mem h

theorem Rule_sub {n : Nat} {a a' : Lists} {x : ObjId × Nat} (h : Rule cs s n a x a') (k : Lst) (id : ObjId) (hk : id ∈ (a' k).ids) : id = x.1 ∨ id ∈ (a k).ids := by
  have hput : ∀ {j : Lst} {c d : Contents}, a j = c ++ d → id ∈ (put a j c k).ids → id ∈ (a k).ids := by
    intro j c d e hm
    by_cases ej : k = j
    · subst ej
      rw [put_same] at hm
      rw [e, ids_append]; exact List.mem_append_left _ hm
    · rw [put_other _ _ ej] at hm; exact hm
  unfold Rule at h
  split at h
  · exact ReplacesLru_sub h k id hk
  · unfold MissEvictsLru at h
    split at h
    · split at h
      · obtain ⟨y, a1, ⟨c, e, rfl⟩, h2⟩ := h
        rcases ReplacesLru_sub h2 k id hk with h3 | h3
        · exact Or.inl h3
        · exact Or.inr (hput e h3)
      · obtain ⟨c, e, rfl⟩ := h
        exact Or.inr (hput e hk)
    · obtain ⟨a1, ⟨rest, gone, e, rfl, _⟩, h2⟩ := h
      rcases ReplacesLru_sub h2 k id hk with h3 | h3
      · exact Or.inl h3
      · exact Or.inr (hput e h3)

theorem toFront_perm (l : Contents) (id : ObjId) : (toFront l id).Perm l := by
  have := List.filter_append_perm (fun x : ObjId × Nat => decide (x.1 = id)) l
  simpa [toFront] using this

theorem Rep.find_spec (h : Rep cs sz p s a) (r : Req) (hok : Sized cs sz r) :
    ∃ s' a', find s r true = .ok (decide (r.id ∈ (ARCv0.cached s).ids), s') ∧ Rep cs sz p s' a' ∧ (ARCv0.cached s').Perm (ARCv0.cached s) ∧ s'.out = s.out ∧
      (p.ins = false → r.id ∉ (a' .B1).ids ∧ r.id ∉ (a' .B2).ids) := by
  by_cases hb1 : r.id ∈ (a .B1).ids
  · obtain ⟨s', h1, h2, h3, _, _, _, _, h4, h5⟩ := h.find_b1 r hb1
    refine ⟨s', _, h1, h2, by unfold ARCv0.cached; rw [h4, h5], h3, fun hp => ⟨?_, ?_⟩⟩
    · rw [put_same]; intro hm; exact (ids_filter_ne.1 hm).2 rfl
    · rw [put_other _ _ (by simp)]; intro hm; have := h.apart hp _ _ _ hb1 hm; cases this
  · by_cases hb2 : r.id ∈ (a .B2).ids
    · obtain ⟨s', h1, h2, h3, _, _, _, _, h4, h5⟩ := h.find_b2 r hb1 hb2
      refine ⟨s', _, h1, h2, by unfold ARCv0.cached; rw [h4, h5], h3, fun hp => ⟨?_, ?_⟩⟩
      · rw [put_other _ _ (by simp)]; exact hb1
      · rw [put_same]; intro hm; exact (ids_filter_ne.1 hm).2 rfl
    · by_cases hc : r.id ∈ (ARCv0.cached s).ids
      · obtain ⟨k, x, hk, hx, hxe⟩ : ∃ k x, (k = .T1 ∨ k = .T2) ∧ x ∈ a k ∧ r.id = x.1 := by
          rcases (h.mem r.id).1 hc with hm | hm
          · obtain ⟨x, hx, e⟩ := List.mem_map.1 hm; exact ⟨.T1, x, Or.inl rfl, hx, e.symm⟩
          · obtain ⟨x, hx, e⟩ := List.mem_map.1 hm; exact ⟨.T2, x, Or.inr rfl, hx, e.symm⟩
        obtain ⟨s', h1, h2, h3, _⟩ := h.find_hit r hok hk hx hxe hb1 hb2
        rw [decide_eq_true hc]
        refine ⟨s', _, h1, h2, ?_, h3, fun _ => ⟨?_, ?_⟩⟩
        · refine (h2.cached.trans ?_).trans h.cached.symm
          rcases hk with rfl | rfl
          · have e1 : Adaptive.hit a .T1 x .T1 = without x.1 (a .T1) := by simp [Adaptive.hit, push, drop, put]
            have e2 : Adaptive.hit a .T1 x .T2 = x :: a .T2 := by simp [Adaptive.hit, push, drop, put]
            rw [e1, e2]
            refine List.perm_middle.trans ?_
            rw [← List.cons_append]
            exact List.Perm.append_right _ (toFront_cons h.t1.nodup hx ▸ toFront_perm _ _)
          · have e1 : Adaptive.hit a .T2 x .T1 = a .T1 := by simp [Adaptive.hit, push, drop, put]
            have e2 : Adaptive.hit a .T2 x .T2 = x :: without x.1 (a .T2) := by simp [Adaptive.hit, push, drop, put]
            rw [e1, e2]
            exact List.Perm.append_left _ (toFront_cons h.t2.nodup hx ▸ toFront_perm _ _)
        · have e3 : Adaptive.hit a k x .B1 = a .B1 := by rcases hk with rfl | rfl <;> simp [Adaptive.hit, push, drop, put]
          rw [e3]; exact hb1
        · have e3 : Adaptive.hit a k x .B2 = a .B2 := by rcases hk with rfl | rfl <;> simp [Adaptive.hit, push, drop, put]
          rw [e3]; exact hb2
      · have hn : ∀ k, r.id ∉ (a k).ids := by
          intro k
          cases k with
          | T1 => exact fun hm => hc ((h.mem _).2 (Or.inl hm))
          | T2 => exact fun hm => hc ((h.mem _).2 (Or.inr hm))
          | B1 => exact hb1
          | B2 => exact hb2
        rw [decide_eq_false hc]
        exact ⟨s, a, h.find_none r hn, h, List.Perm.refl _, rfl, fun _ => ⟨hb1, hb2⟩⟩

theorem Rep.mustEvict_iff (h : Rep cs sz p s a) (r : Req) : (algo R).mustEvict s r = true ↔ cs < charge 0 (a .T1) + charge 0 (a .T2) + r.size := by
  show decide (s.t1.base.occ + s.t2.base.occ + r.size + s.out.objMd > (s.out.cacheSize : Int)) = true ↔ _
  rw [decide_eq_true_eq, h.t1.occ, h.t2.occ, h.mdz, h.csz]; omega

theorem Rep.bump (h : Rep cs sz p s a) : Rep cs sz p ((algo R).bump s) a := h.frame (s.out.nReq + 1) s.out.adm s.p s.inB1 s.inB2 s.vtime

theorem Rep.can (_ : Rep cs sz p s a) (r : Req) : (algo R).canInsert s r = (admitsBase s.out r, { s with out := { s.out with adm := (s.out.adm.admit r).2 } }) := by
  show ((s.out.canInsertDefault r).1, { s with out := (s.out.canInsertDefault r).2 }) = _
  rw [canInsertDefault_eq]

theorem Rep.fits (h : Rep cs sz p s a) {r : Req} (ha : admitsBase s.out r = true) : r.size ≤ cs := by
  simp only [admitsBase, Bool.and_eq_true, decide_eq_true_eq] at ha
  rw [h.mdz, h.csz] at ha
  omega

end

def Ready (cs : Nat) (p : Perms) (s : State R) (r : Req) : Prop := r.size ≤ cs ∧ (p.ins = false → r.id ∉ (lists s .B1).ids ∧ r.id ∉ (lists s .B2).ids)

def measure (s : State R) : Nat := (ARCv0.cached s).length

section
variable {cs : Nat} {sz : ObjId → Nat} {p : Perms} {s : State R} {a : Lists}

/-- one round of the eviction loop -/
theorem Rep.round (h : Rep cs sz p s a) (r : Req) (hle : r.size ≤ cs) (hn : r.id ∉ (ARCv0.cached s).ids) (hme : (algo R).mustEvict s r = true) :
    ∃ s' a' x, (algo R).evict s r = .ok s' ∧ Rep cs sz p s' a' ∧ Rule cs s r.size a x a' ∧ Same s s' ∧ (ARCv0.cached s).Perm (x :: ARCv0.cached s') ∧
      r.id ∉ (ARCv0.cached s').ids ∧ (∀ k, r.id ∉ (a k).ids → r.id ∉ (a' k).ids) := by
  have hm := (h.mustEvict_iff r).1 hme
  have hcap := h.cap
  obtain ⟨s', a', x, h1, h2, h3, h4, h5, _⟩ := h.evict_spec r (by omega) (by omega) hle
  have hp : (ARCv0.cached s).Perm (x :: ARCv0.cached s') := h.cached.trans (h5.trans (h2.cached.symm.cons x))
  have hx : r.id ≠ x.1 := fun e => hn (by rw [e]; exact (hp.map Prod.fst).symm.subset (by simp))
  refine ⟨s', a', x, h1, h2, h3, h4, hp, ?_, ?_⟩
  · intro hm; exact hn ((hp.map Prod.fst).symm.subset (List.mem_cons_of_mem _ hm))
  · intro k hk hk'
    rcases Rule_sub h3 k r.id hk' with h6 | h6
    · exact hx h6
    · exact hk h6

theorem contract {p : Perms} (hp : p.upd = false) (he : p.ev = false) :
    OneByOne (algo R) cached (Inv cs sz p) (Ready cs p) measure cs 0 p (Sized cs sz) where
  csz := fun h => h.csz
  mdz := fun h => h.mdz
  nodup := fun h => h.nodup
  occ := fun {s} h => by
    show s.t1.base.occ + s.t2.base.occ = _
    rw [h.t1.occ, h.t2.occ, h.total]; push_cast; rfl
  nObj := fun {s} h => by
    show s.t1.base.nObj + s.t2.base.nObj = _
    rw [h.t1.nObj, h.t2.nObj, h.cached.length_eq, List.length_append]; push_cast; rfl
  cap := fun {s} h => by
    show s.t1.base.occ + s.t2.base.occ ≤ _
    rw [h.t1.occ, h.t2.occ]; have := h.cap; omega
  bump := fun h => ⟨h.bump, rfl⟩
  findF := fun _ _ r h => h.find_false r
  findHit := fun {s} r h hin hfr => by
    rcases hfr with hfr | ⟨hok, _⟩
    · rw [hp] at hfr; cases hfr
    · obtain ⟨s', a', h1, h2, h3, _⟩ := h.find_spec r hok
      rw [decide_eq_true hin] at h1
      exact ⟨s', h1, h2.inv, h3.subperm⟩
  findMiss := fun {s} r h hin hfr => by
    rcases hfr with hfr | ⟨hok, _⟩
    · rw [hp] at hfr; cases hfr
    · obtain ⟨s', a', h1, h2, h3, _, h5⟩ := h.find_spec r hok
      rw [decide_eq_false hin] at h1
      refine ⟨s', h1, h2.inv, h3, ?_, ?_, ?_⟩
      · rw [h2.can]; exact (h2.frame s'.out.nReq _ s'.p s'.inB1 s'.inB2 s'.vtime).inv
      · rw [h2.can]; exact h3
      · rw [h2.can]
        intro hc _
        refine ⟨h2.fits hc, ?_⟩
        have := (h2.frame s'.out.nReq (s'.out.adm.admit r).2 s'.p s'.inB1 s'.inB2 s'.vtime).lists
        intro hpi
        show r.id ∉ (lists { s' with out := { s'.out with adm := (s'.out.adm.admit r).2 } } .B1).ids ∧ _
        rw [this]
        exact h5 hpi
  fuel := fun {s} h => by
    show measure s ≤ s.t1.base.tbl.length + s.t2.base.tbl.length + 1
    rw [measure, h.cached.length_eq, List.length_append, h.t1.len, h.t2.len]
    omega
  evictLoop := fun {s} r h _ hr hn hme => by
    obtain ⟨s', a', x, h1, h2, h3, h4, h5, h6, h7⟩ := h.round r hr.1 hn hme
    refine ⟨s', h1, h2.inv, ⟨hr.1, fun hpi => ?_⟩, ?_, ?_⟩
    · rw [h2.lists]; exact ⟨h7 _ (hr.2 hpi).1, h7 _ (hr.2 hpi).2⟩
    · exact (List.sublist_cons_self x _).subperm.trans h5.symm.subperm
    · have := h5.length_eq
      simp only [measure, List.length_cons] at this ⊢
      omega
  insert := fun {s} r h hok hr hn hme => by
    have hm : ¬ cs < _ := fun hh => by rw [(h.mustEvict_iff r).2 hh] at hme; cases hme
    obtain ⟨s', k1, k2, _⟩ := h.insert_spec r hok (by omega) (fun hh => hn ((h.mem _).2 (Or.inl hh))) (fun hh => hn ((h.mem _).2 (Or.inr hh))) hr.2
    refine ⟨s', k1, k2.inv, ?_⟩
    have hlt : r.size % u32 = r.size := Nat.mod_eq_of_lt (hok.2 hr.1)
    rw [hlt]
    refine (List.Perm.trans k2.cached ?_).subperm.trans (List.Perm.cons _ h.cached.symm).subperm
    split
    · exact List.perm_middle
    · exact List.Perm.refl _
  userInsert := fun hpi {s} r h hok hn hme => by
    have hm : ¬ cs < _ := fun hh => by rw [(h.mustEvict_iff r).2 hh] at hme; cases hme
    obtain ⟨s', k1, k2, _⟩ := h.insert_spec r hok (by omega) (fun hh => hn ((h.mem _).2 (Or.inl hh))) (fun hh => hn ((h.mem _).2 (Or.inr hh)))
      (fun hh => by rw [hpi] at hh; cases hh)
    refine ⟨s', k1, k2.inv, ?_⟩
    have hlt : r.size % u32 = r.size := Nat.mod_eq_of_lt (hok.2 (by omega))
    rw [hlt]
    refine (List.Perm.trans k2.cached ?_).subperm.trans (List.Perm.cons _ h.cached.symm).subperm
    split
    · exact List.perm_middle
    · exact List.Perm.refl _
  remove := fun _ {s} id h => by
    obtain ⟨s', k1, k2, _⟩ := h.remove_spec id
    refine ⟨_, s', k1, k2.inv, ?_⟩
    have e : (ARCv0.cached s').Perm ((ARCv0.cached s).filter (fun x => x.1 ≠ id)) := by
      refine k2.cached.trans ((h.cached.filter _).trans ?_).symm
      rw [List.filter_append]; exact List.Perm.refl _
    exact e.subperm.trans List.filter_sublist.subperm
  evict := fun hev => by rw [he] at hev; cases hev
  evictAtMostOne := fun {s s'} r h _ hr hn hme hev => by
    obtain ⟨s'', a', x, h1, _, _, _, h5, _⟩ := h.round r hr.1 hn hme
    rw [h1] at hev; cases hev
    exact ⟨[x], by simp, h5⟩

theorem insertAdds (h : Rep cs sz p s a) {s' : State R} (r : Req) (hok : Sized cs sz r) (hr : Ready cs p s r) (hn : r.id ∉ (ARCv0.cached s).ids)
    (hme : (algo R).mustEvict s r = false) (hi : (algo R).insert s r = .ok s') : (ARCv0.cached s').Perm ((r.id, r.size % u32) :: ARCv0.cached s) := by
  have hm : ¬ cs < _ := fun hh => by rw [(h.mustEvict_iff r).2 hh] at hme; cases hme
  have hg : p.ins = false → r.id ∉ (a .B1).ids ∧ r.id ∉ (a .B2).ids := by rw [← h.lists]; exact hr.2
  obtain ⟨s'', k1, k2, _⟩ := h.insert_spec r hok (by omega) (fun hh => hn ((h.mem _).2 (Or.inl hh))) (fun hh => hn ((h.mem _).2 (Or.inr hh))) hg
  rw [show (algo R).insert s r = insert s r from rfl, k1] at hi
  cases hi
  rw [Nat.mod_eq_of_lt (hok.2 hr.1)]
  refine (k2.cached.trans ?_).trans (List.Perm.cons _ h.cached.symm)
  split
  · exact List.perm_middle
  · exact List.Perm.refl _

theorem evictOnDemand {p : Perms} (hp : p.upd = false) (he : p.ev = false) (adm : Adm) :
    EvictOnDemand (algo R) cached (init cs adm) (Calls p (Sized cs sz)) cs 0 :=
  (contract hp he).evictOnDemand (inv_init cs sz p adm) (fun {s s'} r hi hok hf => by
    obtain ⟨s1, a1, h1, h2, h3, _⟩ := Rep.find_spec (Rep.bump hi) r hok
    rw [show (algo R).find ((algo R).bump s) r true = find ((algo R).bump s) r true from rfl, h1] at hf
    injection hf with hf
    injection hf with _ hf
    subst hf
    exact h3) (fun {s s'} r h hok hr hn hme hi => Or.inl (insertAdds h r hok hr hn hme hi))

/-- The victims are what is missing afterwards, and without the last of them there was no room. -/
def Victims (cs size : Nat) (a : Lists) (vs : Contents) (a' : Lists) : Prop :=
  (a .T1 ++ a .T2).Perm (vs ++ (a' .T1 ++ a' .T2)) ∧ ∀ us v, vs = us ++ [v] → cs < charge 0 (v :: (a' .T1 ++ a' .T2)) + size

/-- the eviction loop -/
theorem Rep.loop (r : Req) (hle : r.size ≤ cs) : ∀ n (s : State R) (a : Lists), Rep cs sz p s a → r.id ∉ (ARCv0.cached s).ids → measure s ≤ n →
    ∃ s' a' vs, (algo R).evictLoop r n s = .ok s' ∧ Rep cs sz p s' a' ∧ EvictsAll (Rule cs s r.size) a vs a' ∧ Same s s' ∧ (algo R).mustEvict s' r = false ∧
      r.id ∉ (ARCv0.cached s').ids ∧ (∀ k, r.id ∉ (a k).ids → r.id ∉ (a' k).ids) ∧ Victims cs r.size a vs a' := by
  intro n
  induction n with
  | zero =>
    intro s a h hn hm
    cases hme : (algo R).mustEvict s r with
    | false => exact ⟨s, a, [], by simp [Algo.evictLoop, hme], h, .none a, ⟨rfl, rfl, rfl, rfl, rfl⟩, hme, hn, fun _ hk => hk, List.Perm.refl _, by simp⟩
    | true =>
      obtain ⟨s', a', x, h1, h2, h3, h4, h5, _⟩ := h.round r hle hn hme
      have := h5.length_eq
      simp only [measure, List.length_cons] at this hm
      omega
  | succ n ih =>
    intro s a h hn hm
    cases hme : (algo R).mustEvict s r with
    | false => exact ⟨s, a, [], by simp [Algo.evictLoop, hme], h, .none a, ⟨rfl, rfl, rfl, rfl, rfl⟩, hme, hn, fun _ hk => hk, List.Perm.refl _, by simp⟩
    | true =>
      obtain ⟨s1, a1, x, h1, h2, h3, h4, h5, h6, h7⟩ := h.round r hle hn hme
      have hl := h5.length_eq
      simp only [List.length_cons] at hl
      obtain ⟨s', a', vs, k1, k2, k3, k4, k5, k6, k7, k8, k9⟩ := ih s1 a1 h2 h6 (by simp only [measure] at hm ⊢; omega)
      rw [h4.rule] at k3
      refine ⟨s', a', x :: vs, by simp [Algo.evictLoop, hme, h1, k1], k2, .one h3 k3, h4.trans k4, k5, k6, fun k hk => k7 k (h7 k hk), ?_, ?_⟩
      · have := h.cached.symm.trans (h5.trans (h2.cached.cons x))
        exact this.trans (k8.cons x)
      · intro us v huv
        cases us with
        | nil =>
          injection huv with e1 e2
          subst e1; subst e2
          cases k3
          have hm := (h.mustEvict_iff r).1 hme
          have := charge_perm (md := 0) (h.cached.symm.trans (h5.trans (h2.cached.cons x)))
          rw [charge_app] at this
          omega
        | cons u us =>
          injection huv with _ e2
          exact k9 us v e2

/-- from the answer of `find` on: a miss -/
theorem Rep.rest {s1 : State R} (h : Rep cs sz p s1 a) {r : Req} (hok : Sized cs sz r) (hf : (algo R).find ((algo R).bump s) r true = .ok (false, s1))
    (hn : r.id ∉ (ARCv0.cached s1).ids) (hg : p.ins = false → r.id ∉ (a .B1).ids ∧ r.id ∉ (a .B2).ids) :
    (admitsBase s1.out r = false → ∃ s', (algo R).get s r = .ok (false, s') ∧ Rep cs sz p s' a ∧ s' = { s1 with out := { s1.out with adm := (s1.out.adm.admit r).2 } }) ∧
    (admitsBase s1.out r = true → ∃ s' a' vs, (algo R).get s r = .ok (false, s') ∧ EvictsAll (Rule cs s1 r.size) a vs a' ∧
      Rep cs sz p s' (push a' (if afterGhostHit s1 then .T2 else .T1) (r.id, r.size)) ∧ s'.out = { s1.out with adm := (s1.out.adm.admit r).2 } ∧ s'.p = s1.p ∧
      s'.inB1 = (s1.inB1 && !afterGhostHit s1) ∧ s'.inB2 = (s1.inB2 && !afterGhostHit s1) ∧ s'.vtime = (if afterGhostHit s1 then -1 else s1.vtime) ∧
      charge 0 (a' .T1) + charge 0 (a' .T2) + r.size ≤ cs ∧ Victims cs r.size a vs a') := by
  have hc := h.can r
  have hR := h.frame s1.out.nReq (s1.out.adm.admit r).2 s1.p s1.inB1 s1.inB2 s1.vtime
  constructor
  · intro ha
    rw [ha] at hc
    exact ⟨_, get_reject hf hc, hR, rfl⟩
  · intro ha
    rw [ha] at hc
    have hle := h.fits ha
    obtain ⟨s3, a3, vs, h1, h2, h3, h4, h5, h6, h7, h8⟩ := Rep.loop r hle ((algo R).fuel { s1 with out := { s1.out with adm := (s1.out.adm.admit r).2 } }) _ _ hR hn
      (by
        show measure _ ≤ s1.t1.base.tbl.length + s1.t2.base.tbl.length + 1
        have := hR.cached.length_eq
        rw [List.length_append] at this
        rw [measure, this, h.t1.len, h.t2.len]; omega)
    have hm : ¬ cs < _ := fun hh => by rw [(h2.mustEvict_iff r).2 hh] at h5; cases h5
    obtain ⟨s4, k1, k2, k3, k4, k5, k6, k7⟩ := h2.insert_spec r hok (by omega) (fun hh => h6 ((h2.mem _).2 (Or.inl hh))) (fun hh => h6 ((h2.mem _).2 (Or.inr hh)))
      (fun hp => ⟨h7 _ (hg hp).1, h7 _ (hg hp).2⟩)
    have hag : afterGhostHit s3 = afterGhostHit s1 := h4.after
    rw [hag] at k2 k5 k6 k7
    refine ⟨s4, a3, vs, get_accept hf hc h1 k1, h3, k2, k3.trans h4.1, k4.trans h4.2.1, ?_, ?_, ?_, by omega, h8⟩
    · rw [k5]; exact congrArg (· && _) h4.2.2.1
    · rw [k6]; exact congrArg (· && _) h4.2.2.2.1
    · rw [k7]; exact congrArg (fun v => if afterGhostHit s1 = true then -1 else v) h4.2.2.2.2

end

end Verif.ARCv0
