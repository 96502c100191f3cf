import Verif.Algo.Sampled
import Verif.Spec.Sampled
import Verif.Proof.Timed
import Verif.Proof.Tag
import Verif.Proof.Random
import Mathlib.Algebra.Order.Field.Basic
import Mathlib.Tactic.NormNum
import Mathlib.Tactic.Ring
import Verif.Proof.View
/-!
# Helper proofs for the sampling algorithms
-/

namespace Verif.Sampled
open Verif Spec
variable {μ P : Type}

/-- the objects drawn by the next `n` calls of `randObj` -/
def draws (tbl : List (Obj μ)) (picks : List Nat) (n : Nat) : List (Obj μ) :=
  (List.range n).filterMap (fun i => tbl[picks.getD i 0 % tbl.length]?)

theorem draws_mem {tbl : List (Obj μ)} {picks : List Nat} {n : Nat} {o : Obj μ} (h : o ∈ draws tbl picks n) : o ∈ tbl := by
  simp only [draws, List.mem_filterMap] at h
  obtain ⟨i, _, h⟩ := h
  exact List.mem_of_getElem? h

theorem randObj_spec {tbl : List (Obj μ)} {picks : List Nat} (hne : tbl ≠ []) :
    ∃ o, randObj tbl picks = .ok (o, picks.tail) ∧ tbl[picks.headD 0 % tbl.length]? = some o := by
  have hl : tbl.length ≠ 0 := by simpa using hne
  have := Nat.mod_lt (picks.headD 0) (Nat.pos_of_ne_zero hl)
  exact ⟨_, by unfold randObj; rw [dif_neg hl], List.getElem?_eq_getElem this⟩

theorem draws_succ {tbl : List (Obj μ)} {picks : List Nat} (n : Nat) {o : Obj μ} (h : tbl[picks.headD 0 % tbl.length]? = some o) :
    draws tbl picks (n + 1) = o :: draws tbl picks.tail n := by
  unfold draws
  rw [List.range_succ_eq_map, List.filterMap_cons]
  have : picks.getD 0 0 = picks.headD 0 := by cases picks <;> rfl
  rw [this, h]
  simp only [List.filterMap_map, List.cons.injEq, true_and]
  apply List.filterMap_congr
  intro i _
  simp only [Function.comp, Rand.getD_tail]

/-- what `better` has to satisfy for the sampling loop to find a best object -/
structure Order (better : P → P → Bool) : Prop where
  asym : ∀ {x y}, better x y = true → better y x = false
  trans : ∀ {x y z}, better x y = false → better y z = false → better x z = false

theorem pickBest_spec {better : P → P → Bool} (O : Order better) (score : Obj μ → P) {tbl : List (Obj μ)} (hne : tbl ≠ []) :
    ∀ (n : Nat) (picks : List Nat) (best : Option (Obj μ)) (bs : P),
      ∃ res, pickBest better score tbl n picks best bs = .ok (res, picks.drop n) ∧
        ((res = best ∧ ∀ x ∈ draws tbl picks n, better (score x) bs = false) ∨
          ∃ o ∈ draws tbl picks n, res = some o ∧ better (score o) bs = true ∧ ∀ x ∈ draws tbl picks n, better (score x) (score o) = false) := by
  intro n
  induction n with
  | zero => intro picks best bs; exact ⟨best, rfl, .inl ⟨rfl, by simp [draws]⟩⟩
  | succ n ih =>
    intro picks best bs
    obtain ⟨o, h1, h2⟩ := randObj_spec (picks := picks) hne
    rw [draws_succ n h2]
    have hd : picks.tail.drop n = picks.drop (n + 1) := by cases picks <;> simp
    by_cases hb : better (score o) bs = true
    · obtain ⟨res, g1, g2⟩ := ih picks.tail (some o) (score o)
      refine ⟨res, by simp only [pickBest, h1, Res.bind_ok, hb, if_true, g1, hd], .inr ?_⟩
      rcases g2 with ⟨g2, g3⟩ | ⟨o', g2, g3, g4, g5⟩
      · refine ⟨o, by simp, g2, hb, fun x hx => ?_⟩
        rcases List.mem_cons.1 hx with rfl | hx
        · cases h : better (score x) (score x) with
          | false => rfl
          | true => rw [O.asym h] at h; cases h
        · exact g3 x hx
      · have h3 : better (score o') bs = true := by
          cases h : better (score o') bs with
          | true => rfl
          | false => rw [O.trans h (O.asym hb)] at g4; cases g4
        refine ⟨o', by simp [g2], g3, h3, fun x hx => ?_⟩
        rcases List.mem_cons.1 hx with rfl | hx
        · exact O.asym g4
        · exact g5 x hx
    · have hb : better (score o) bs = false := by simpa using hb
      obtain ⟨res, g1, g2⟩ := ih picks.tail best bs
      refine ⟨res, by simp only [pickBest, h1, Res.bind_ok, hb, Bool.false_eq_true, if_false, g1, hd], ?_⟩
      rcases g2 with ⟨g2, g3⟩ | ⟨o', g2, g3, g4, g5⟩
      · refine .inl ⟨g2, fun x hx => ?_⟩
        rcases List.mem_cons.1 hx with rfl | hx
        · exact hb
        · exact g3 x hx
      · refine .inr ⟨o', by simp [g2], g3, g4, fun x hx => ?_⟩
        rcases List.mem_cons.1 hx with rfl | hx
        · exact O.trans hb (O.asym g4)
        · exact g5 x hx

theorem draws_sampled (b : Base μ) (picks : List Nat) (k : Nat) :
    (draws b.tbl picks k).map (fun o => (o.id, o.size)) = Sample.sampled b.cached picks k := by
  simp only [draws, Sample.sampled, List.map_filterMap, Base.cached, List.getElem?_map, List.length_map]

theorem cached_erase {b b' : Base μ} (hn : (b.tbl.map (·.id)).Nodup) {o : Obj μ} (ho : o ∈ b.tbl)
    (he : b'.tbl = b.tbl.eraseP (fun x => x.id == o.id)) : b'.cached = b.cached.erase (o.id, o.size) := by
  simp only [Base.cached, he]
  generalize b.tbl = l at hn ho
  induction l with
  | nil => simp at ho
  | cons a l ih =>
    simp only [List.map_cons, List.nodup_cons] at hn
    by_cases e : a = o
    · subst e; simp
    · have ho : o ∈ l := by
        rcases List.mem_cons.1 ho with rfl | h
        · exact absurd rfl e
        · exact h
      have e' : a.id ≠ o.id := fun h => hn.1 (h ▸ List.mem_map_of_mem (f := (·.id)) ho)
      have e1 : (a.id == o.id) = false := by simpa using e'
      have e2 : ((a.id, a.size) == (o.id, o.size)) = false := by
        simp only [beq_eq_false_iff_ne, ne_eq, Prod.mk.injEq, not_and]; exact fun h => absurd h e'
      rw [List.eraseP_cons_of_neg (by simpa using e'), List.map_cons, List.map_cons, List.erase_cons, e2, ih hn.2 ho]
      simp

end Verif.Sampled

namespace Verif.Hyperbolic
open Verif Spec Sampled

theorem order_lower : Order lower where
  asym := fun {x y} h => by
    cases x <;> cases y <;> simp_all [lower]
    exact le_of_lt h
  trans := fun {x y z} h1 h2 => by
    cases x <;> cases y <;> cases z <;> simp_all [lower]
    exact le_trans h2 h1

theorem Rounding.fin (R : Rounding) {f : Int} (h1 : -2 ^ 23 ≤ f) (h2 : f < 2 ^ 23) : R.rnd (100000000 * R.rnd f) = 100000000 * f := by
  have e1 : R.rnd f = f := R.ints f (by omega)
  have e2 : ((100000000 * f : Int) : Rat) = 100000000 * f := by push_cast; rfl
  rw [e1, ← e2, R.ints]
  omega

theorem score_lt (R : Rounding) {f a : Int} (h1 : -2 ^ 23 ≤ f) (h2 : f < 2 ^ 23) (ha : 1 ≤ a) :
    lower (score R f a) (some (10 ^ 16)) = true := by
  unfold score
  rw [if_neg (by omega), R.fin h1 h2]
  simp only [lower, decide_eq_true_eq]
  have e1 : (1 : Rat) ≤ R.rnd a := by
    have := R.mono 1 a (by exact_mod_cast ha)
    have e : R.rnd ((1 : Int) : Rat) = ((1 : Int) : Rat) := R.ints 1 (by decide)
    simp only [Int.cast_one] at e
    rw [e] at this; exact this
  have e2 : (100000000 * f : Rat) / R.rnd a ≤ 838860800000000 := by
    have hpos : (0 : Rat) < R.rnd a := lt_of_lt_of_le (by norm_num) e1
    rw [div_le_iff₀ hpos]
    have hf : (f : Rat) ≤ 8388608 := by
      have : f ≤ 8388608 := by omega
      exact_mod_cast this
    calc (100000000 * f : Rat) ≤ 100000000 * 8388608 := by
          exact mul_le_mul_of_nonneg_left hf (by norm_num)
      _ = 838860800000000 * 1 := by norm_num
      _ ≤ 838860800000000 * R.rnd a := mul_le_mul_of_nonneg_left e1 (by norm_num)
  have e3 := R.mono _ _ e2
  have e4 : R.rnd ((838860800000000 : Int) : Rat) = ((838860800000000 : Int) : Rat) := R.ints _ (by decide)
  have e5 : ((838860800000000 : Int) : Rat) = 838860800000000 := by norm_num
  rw [e5] at e4
  rw [e4] at e3
  exact lt_of_le_of_lt e3 (by norm_num)

/-- The state invariant: between calls no eviction candidate is pending, and no object entered in the future. -/
structure Inv (cs md : Nat) (s : State) : Prop where
  b : BInv cs md s.base
  cand : s.candVt = -1
  objs : ∀ o ∈ s.base.tbl, o.mt.enter ≤ s.base.nReq ∧ -2 ^ 23 ≤ o.mt.freq ∧ o.mt.freq < 2 ^ 23

/-- the request being handled has not entered any object yet -/
def New (s : State) : Prop := ∀ o ∈ s.base.tbl, o.mt.enter < s.base.nReq

variable {cs md n : Nat} {s : State}

theorem bmod_le (x : Nat) (m : Nat) : Int.bmod (x : Int) m ≤ x := by
  have h2 : (x : Int) % m ≤ x := by rw [← Int.natCast_emod]; exact_mod_cast Nat.mod_le x m
  rw [Int.bmod_def]
  split <;> omega

theorem bmod_24 (x : Int) : -2 ^ 23 ≤ Int.bmod x (2 ^ 24) ∧ Int.bmod x (2 ^ 24) < 2 ^ 23 := by
  constructor
  · have := Int.le_bmod (x := x) (m := 2 ^ 24) (by decide); simpa using this
  · have := Int.bmod_lt (x := x) (m := 2 ^ 24) (by decide); simpa using this

/-- the object `to_evict` finds -/
theorem toEvict_spec (R : Rounding) (hn : 0 < n) (hi : Inv cs md s) (hnew : New s) (hne : s.base.tbl ≠ []) :
    ∃ o ∈ draws s.base.tbl s.picks n,
      toEvict R n s = .ok (some o.id, { s with picks := s.picks.drop n, cand := some o.id, candVt := s.base.nReq }) ∧
      ∀ x ∈ draws s.base.tbl s.picks n, lower (score R x.mt.freq (s.base.nReq - x.mt.enter)) (score R o.mt.freq (s.base.nReq - o.mt.enter)) = false := by
  obtain ⟨res, h1, h2⟩ := pickBest_spec order_lower (fun o : Obj Meta => score R o.mt.freq (s.base.nReq - o.mt.enter)) hne n s.picks none (some (10 ^ 16))
  rcases h2 with ⟨_, h3⟩ | ⟨o, h3, h4, _, h5⟩
  · obtain ⟨m, rfl⟩ : ∃ m, n = m + 1 := ⟨n - 1, by omega⟩
    obtain ⟨o, _, g2⟩ := randObj_spec (picks := s.picks) hne
    have ho : o ∈ draws s.base.tbl s.picks (m + 1) := by rw [draws_succ m g2]; simp
    have := h3 o ho
    obtain ⟨_, q2, q3⟩ := hi.objs o (draws_mem ho)
    have q1 := hnew o (draws_mem ho)
    rw [score_lt R q2 q3 (by omega)] at this
    cases this
  · refine ⟨o, h3, ?_, h5⟩
    subst h4
    unfold toEvict
    rw [h1]; rfl

theorem evict_spec (R : Rounding) (hn : 0 < n) (hi : Inv cs md s) (hnew : New s) (hne : s.base.tbl ≠ []) :
    ∃ o ∈ draws s.base.tbl s.picks n, ∃ s', evict R n s = .ok s' ∧ Inv cs md s' ∧ New s' ∧ s'.base.tbl = s.base.tbl.eraseP (fun x => x.id == o.id) ∧
      s.base.cached.Perm ((o.id, o.size) :: s'.base.cached) ∧ s'.base.nReq = s.base.nReq ∧ s'.picks = s.picks.drop n ∧
      ∀ x ∈ draws s.base.tbl s.picks n, lower (score R x.mt.freq (s.base.nReq - x.mt.enter)) (score R o.mt.freq (s.base.nReq - o.mt.enter)) = false := by
  obtain ⟨o, h1, h2, h3⟩ := toEvict_spec R hn hi hnew hne
  have hm := draws_mem h1
  obtain ⟨b', g1, g2, g3, g4, g5, _, g7⟩ := hi.b.remove (lookup_of_mem hi.b.inv.nodup hm)
  have sub : ∀ x ∈ b'.tbl, x ∈ s.base.tbl := fun x hx => by rw [g3] at hx; exact List.mem_of_mem_eraseP hx
  refine ⟨o, h1, { base := b', picks := s.picks.drop n, cand := some o.id, candVt := -1 }, ?_, ⟨g2, rfl, ?_⟩, ?_, g3, g5, g7, rfl, h3⟩
  · unfold evict
    rw [if_neg (by rw [hi.cand]; omega), h2]
    simp only [Res.bind_ok]
    have g1' : s.base.evictBase o.id = .ok b' := g1
    rw [g1', Res.bind_ok]
  · intro x hx; rw [g7]; exact hi.objs x (sub x hx)
  · intro x hx; rw [g7]; exact hnew x (sub x hx)

theorem inv_init (cs md : Nat) (adm : Adm) (picks : List Nat) : Inv cs md (init cs md adm picks) :=
  ⟨⟨baseInv_init _ _ _, rfl, rfl⟩, rfl, by simp [init, Base.init]⟩

/-- what a hit does to the object -/
def hitObj (r : Req) (o : Obj Meta) : Obj Meta := { touch r o with mt := { o.mt with freq := Int.bmod (o.mt.freq + 1) (2 ^ 24) } }

theorem find_hit {r : Req} {o : Obj Meta} (h : s.base.lookup r.id = some o) :
    find s r true = .ok (true, { s with base := s.base.modify r.id (hitObj r) }) := by
  have hid : o.id = r.id := (lookup_some_mem h).2
  simp only [find, findBase_hit h, if_true]
  have : (touch r o).id = r.id := hid
  rw [this, Rand.modify_modify s.base r.id (touch r) _ (fun _ => rfl)]
  rfl

theorem find_miss {r : Req} (h : s.base.lookup r.id = none) : find s r true = .ok (false, s) := by
  simp only [find, findBase_miss h]

theorem mem_modify {μ : Type} {b : Base μ} {id : ObjId} {f : Obj μ → Obj μ} {x : Obj μ} (h : x ∈ (b.modify id f).tbl) :
    ∃ y ∈ b.tbl, x = f y ∨ x = y := by
  simp only [Base.modify, List.mem_map] at h
  obtain ⟨y, hy, rfl⟩ := h
  refine ⟨y, hy, ?_⟩
  split
  · exact .inl rfl
  · exact .inr rfl

theorem remove_hit {id : ObjId} {o : Obj Meta} (h : Inv cs md s) (ho : s.base.lookup id = some o) :
    ∃ s', remove s id = .ok (true, s') ∧ Inv cs md s' ∧ s'.base.tbl = s.base.tbl.eraseP (fun o => o.id == id) ∧ s'.base.nReq = s.base.nReq ∧
      s.base.cached.Perm ((o.id, o.size) :: s'.base.cached) := by
  have hid := (lookup_some_mem ho).2
  obtain ⟨b', h1, h2, h3, _, h5, _, h7⟩ := h.b.remove ho
  rw [← hid] at h1
  refine ⟨{ s with base := b' }, by simp only [remove, ho, h1, Res.bind_ok], ⟨h2, h.cand, fun x hx => ?_⟩, h3, h7, h5⟩
  rw [h7]
  have hx : x ∈ b'.tbl := hx
  rw [h3] at hx
  exact h.objs x (List.mem_of_mem_eraseP hx)

/-- The calls for which the cache works. -/
abbrev perms : Perms := { upd := false, ins := false, ev := false }

theorem spec (R : Rounding) (hn : 0 < n) (cs md : Nat) :
    TSpec (algo R n) (fun s => s.base) (fun s b => { s with base := b }) (Inv cs md) New cs md perms where
  base_set := fun _ _ => rfl
  occ := fun _ => rfl
  nObj := fun _ => rfl
  csz := fun _ => rfl
  mdz := fun _ => rfl
  bumpEq := fun _ => rfl
  canEq := fun _ _ => rfl
  inv := fun h => h.b
  upd := rfl
  ins := rfl
  fuel := fun _ => Nat.le_succ _
  bump := fun {s} h => by
    refine ⟨⟨h.b.bump, h.cand, fun o ho => ?_⟩, fun o ho => ?_⟩
    · obtain ⟨h1, h2⟩ := h.objs o ho
      exact ⟨by simp only [algo, Base.bump]; push_cast; omega, h2⟩
    · obtain ⟨h1, h2⟩ := h.objs o ho
      simp only [algo, Base.bump]; push_cast; omega
  adm := fun {s} a h => ⟨⟨h.b.setAdm a, h.cand, h.objs⟩, fun hn => hn⟩
  findF := fun {s} r h => by
    simp only [algo, find, findBase_false]
    cases s.base.lookup r.id <;> simp
  findHit := fun {s} r o h hnew ho => by
    refine ⟨{ s with base := s.base.modify r.id (hitObj r) }, find_hit ho, h.b.modify r.id (hitObj r) (fun _ => rfl) (fun _ => rfl), h.cand, fun x hx => ?_⟩
    obtain ⟨y, hy, e⟩ := mem_modify hx
    obtain ⟨h1, h2, h3⟩ := h.objs y hy
    rcases e with rfl | rfl
    · exact ⟨h1, bmod_24 _⟩
    · exact ⟨h1, h2, h3⟩
  hitPerm := fun {s s'} r h hf => by
    have hf : find s r true = .ok (true, s') := hf
    cases ho : s.base.lookup r.id with
    | none => rw [find_miss ho] at hf; cases hf
    | some o =>
      rw [find_hit ho] at hf; cases hf
      rw [Base.cached_modify s.base r.id (hitObj r) (fun _ => rfl) (fun _ => rfl)]
  findMiss := fun {s} r _ hl => by show find s r true = _; exact find_miss hl
  evict := fun {s} r h hne hp => by
    have hnew : New s := by rcases hp with hp | hp; cases hp; exact hp
    obtain ⟨o, _, s', h1, h2, h3, _, h5, _⟩ := evict_spec R hn h hnew hne
    exact ⟨s', (o.id, o.size), h1, h2, fun _ => h3, h5⟩
  insert := fun {s} r h hnew hl hroom hok => by
    refine ⟨{ s with base := s.base.insertBase { freq := 1, enter := Int.bmod s.base.nReq (2 ^ 40) } r }, by simp only [algo, insert], ⟨h.b.insert _ r (lookup_none_iff'.1 hl) hroom hok, h.cand, fun x hx => ?_⟩, by rw [cached_insertBase]⟩
    rcases List.mem_cons.1 hx with rfl | hx
    · have e := bmod_le s.base.nReq (2 ^ 40)
      refine ⟨?_, by simp [Obj.ofReq], by simp [Obj.ofReq]⟩
      simp only [Base.insertBase, Obj.ofReq]; exact e
    · exact h.objs x hx
  removeMiss := fun _ {s} id _ hl => by simp [algo, remove, hl]
  removeHit := fun _ {s} id o h ho => by
    obtain ⟨s', h1, h2, _, _, h5⟩ := remove_hit h ho
    exact ⟨s', h1, h2, h5⟩

/-- the whole state but the request counter and the admission policy -/
def core (s : State) : List (Obj Meta) × Int × Int × List Nat × Option ObjId × Int :=
  (s.base.tbl, s.base.occ, s.base.nObj, s.picks, s.cand, s.candVt)

theorem strong (R : Rounding) (hn : 0 < n) (cs md : Nat) :
    TStrong (algo R n) (fun s => s.base) (Inv cs md) New cs md core perms := (spec R hn cs md).strong core (fun _ _ _ => rfl)

/-! ### Access counts and entry times from the history -/

def metaOf (s : State) (id : ObjId) : Option Meta := (s.base.lookup id).map (·.mt)

theorem evict_inv {R : Rounding} {s' : State} (h : Inv cs md s) (he : evict R n s = .ok s') :
    ∃ id, s'.base.tbl = s.base.tbl.eraseP (fun o => o.id == id) ∧ s'.base.nReq = s.base.nReq := by
  unfold evict at he
  rw [if_neg (by rw [h.cand]; omega), Res.bind_eq_ok] at he
  obtain ⟨p, h1, h2⟩ := he
  unfold toEvict at h1
  rw [Res.bind_eq_ok] at h1
  obtain ⟨q, _, h3⟩ := h1
  cases h3
  cases hq : q.1 with
  | none => simp [hq] at h2
  | some o =>
    simp only [hq, Option.map_some] at h2
    rw [Res.bind_eq_ok] at h2
    obtain ⟨b, h4, h5⟩ := h2
    cases h5
    have h4 : s.base.removeObjBase o.id = .ok b := h4
    cases hl : s.base.lookup o.id with
    | none => simp [Base.removeObjBase, hl] at h4
    | some o' =>
      obtain ⟨b', g1, _, g3, _, _, _, g7⟩ := h.b.remove hl
      rw [g1] at h4; cases h4
      exact ⟨o.id, g3, g7⟩

theorem tagged (R : Rounding) (cs md : Nat) :
    Tagged (algo R n) (fun s => s.base) (fun s b => { s with base := b }) (Inv cs md) cs md perms (SizeOk md) metaOf
      (fun _ _ m => { m with freq := Int.bmod (m.freq + 1) (2 ^ 24) }) (fun n _ => { freq := 1, enter := Int.bmod n (2 ^ 40) }) where
  dom := fun id _ h => by simp [metaOf, h]
  ex := fun id o _ h => ⟨o.mt, by simp [metaOf, h]⟩
  frame := fun _ _ _ _ => rfl
  hit := fun {s s'} r o h ho hf => by
    have hf' : find s r true = .ok (true, s') := hf
    rw [find_hit ho] at hf'
    cases hf'
    refine ⟨rfl, fun id => ?_⟩
    simp only [metaOf]
    by_cases e : id = r.id
    · subst e
      rw [lookup_modify_self (f := hitObj r) (fun _ => rfl) ho]
      simp [ho, hitObj]
    · rw [lookup_modify_ne (f := hitObj r) (fun _ => rfl) e]; simp [e]
  evict := fun {s s'} _ h hne he => by
    obtain ⟨id, h1, h2⟩ := evict_inv h he
    refine ⟨h2, fun i k hk => ?_⟩
    simp only [metaOf, Option.map_eq_some_iff] at hk ⊢
    obtain ⟨x, hx, hk⟩ := hk
    exact ⟨x, Rand.lookup_erase h.b.inv.nodup h1 hx, hk⟩
  insert := fun {s s'} r h hn _ _ hi => by
    have hi' : insert s r = .ok s' := hi
    simp only [insert] at hi'
    cases hi'
    refine ⟨rfl, fun id => ?_⟩
    simp only [metaOf]
    rw [lookup_insertBase]
    by_cases e : id = r.id
    · subst e; simp [Obj.ofReq]
    · simp [e]
  remove := fun {s s'} id b h hr => by
    have hr' : remove s id = .ok (b, s') := hr
    cases hl : s.base.lookup id with
    | none => simp only [remove, hl] at hr'; cases hr'; exact ⟨rfl, fun _ _ h => h⟩
    | some o =>
      obtain ⟨s'', h1, _, h3, h4, _⟩ := remove_hit h hl
      rw [h1] at hr'; cases hr'
      refine ⟨h4, fun i k hk => ?_⟩
      simp only [metaOf, Option.map_eq_some_iff] at hk ⊢
      obtain ⟨x, hx, hk⟩ := hk
      exact ⟨x, Rand.lookup_erase h.b.inv.nodup h3 hx, hk⟩

theorem entered_fst (id : ObjId) (h : List (Op × Bool)) : (h.foldl (Sample.enterStep id) (0, 0)).1 = gets h := by
  have key : ∀ (h : List (Op × Bool)) (a : Nat × Nat), (h.foldl (Sample.enterStep id) a).1 = a.1 + gets h := by
    intro h
    induction h with
    | nil => intro a; rfl
    | cons e h ih =>
      intro a
      rw [List.foldl_cons, ih]
      obtain ⟨op, b⟩ := e
      cases op <;> cases b <;> simp [Sample.enterStep, gets] <;> omega
  simpa using key h (0, 0)

/-- The stored count and entry time are those of the history, up to wrapping. -/
theorem hist_meta : ∀ (h : List (Op × Bool)) (id : ObjId) (m : Meta),
    (histTag (fun _ _ m => { m with freq := Int.bmod (m.freq + 1) (2 ^ 24) }) (fun n _ => ({ freq := 1, enter := Int.bmod n (2 ^ 40) } : Meta)) h id).1 = gets h ∧
    ((histTag (fun _ _ m => { m with freq := Int.bmod (m.freq + 1) (2 ^ 24) }) (fun n _ => ({ freq := 1, enter := Int.bmod n (2 ^ 40) } : Meta)) h id).2 = some m →
      m.freq = Int.bmod (hitsSince h id + 1) (2 ^ 24) ∧ m.enter = Int.bmod (Sample.enteredAt h id) (2 ^ 40)) := by
  intro h
  induction h using List.reverseRecOn with
  | nil => intro id m; exact ⟨rfl, fun hk => by cases hk⟩
  | append_singleton h e ih =>
    intro id m
    obtain ⟨op, b⟩ := e
    have ih1 := (ih id m).1
    have ih2 := fun m => (ih id m).2
    have hg : gets (h ++ [(op, b)]) = tick (gets h) op := by
      rw [gets, List.countP_append]
      cases op <;> simp [gets, tick]
    have hS : hitsSince (h ++ [(op, b)]) id = hitStep id (hitsSince h id) (op, b) := by
      simp only [hitsSince, List.foldl_append, List.foldl_cons, List.foldl_nil]
    have hE : Sample.enteredAt (h ++ [(op, b)]) id = (Sample.enterStep id (gets h, Sample.enteredAt h id) (op, b)).2 := by
      have : (gets h, Sample.enteredAt h id) = h.foldl (Sample.enterStep id) (0, 0) := by
        rw [← entered_fst id h]; rfl
      rw [this]
      simp only [Sample.enteredAt, List.foldl_append, List.foldl_cons, List.foldl_nil]
    rw [histTag, List.foldl_append]
    simp only [List.foldl_cons, List.foldl_nil]
    rw [histTag] at ih1
    simp only [histTag] at ih2
    rw [ih1, hg, hS, hE]
    refine ⟨rfl, fun hk => ?_⟩
    generalize List.foldl _ _ h = acc at *
    have bm : ∀ x : Int, Int.bmod (Int.bmod x (2 ^ 24) + 1) (2 ^ 24) = Int.bmod (x + 1) (2 ^ 24) := fun x => Int.bmod_add_bmod
    have key : ∀ r : Req, (if r.id = id then acc.2.map (fun m => ({ m with freq := Int.bmod (m.freq + 1) (2 ^ 24) } : Meta)) else acc.2) = some m →
        m.freq = Int.bmod ((if r.id = id then hitsSince h id + 1 else hitsSince h id : Nat) + 1) (2 ^ 24) ∧ m.enter = Int.bmod (Sample.enteredAt h id) (2 ^ 40) := by
      intro r hr
      by_cases e : r.id = id
      · simp only [e, if_true, Option.map_eq_some_iff] at hr ⊢
        obtain ⟨m', h1, rfl⟩ := hr
        obtain ⟨g1, g2⟩ := ih2 m' h1
        refine ⟨?_, g2⟩
        simp only [g1]
        rw [bm]; push_cast; rfl
      · simp only [e, if_false] at hr ⊢
        exact ih2 m hr
    cases op with
    | get r =>
      cases b with
      | true =>
        have := key r hk
        simpa [hitStep, Sample.enterStep] using this
      | false =>
        have hk : (if r.id = id then some ({ freq := 1, enter := Int.bmod (tick (gets h) (.get r) : Nat) (2 ^ 40) } : Meta) else acc.2) = some m := hk
        by_cases e : r.id = id
        · simp only [e, if_true, Option.some.injEq] at hk
          subst hk
          simp [hitStep, Sample.enterStep, e, tick]
        · simp only [e, if_false] at hk
          simpa [hitStep, Sample.enterStep, e] using ih2 m hk
    | find r u =>
      cases u with
      | false => simpa [hitStep, Sample.enterStep] using ih2 m hk
      | true =>
        cases b with
        | true =>
          have := key r hk
          simpa [hitStep, Sample.enterStep] using this
        | false => simpa [hitStep, Sample.enterStep] using ih2 m hk
    | insert r =>
      cases b with
      | true =>
        have hk : (if r.id = id then some ({ freq := 1, enter := Int.bmod (tick (gets h) (.insert r) : Nat) (2 ^ 40) } : Meta) else acc.2) = some m := hk
        by_cases e : r.id = id
        · simp only [e, if_true, Option.some.injEq] at hk
          subst hk
          simp [hitStep, Sample.enterStep, e, tick]
        · simp only [e, if_false] at hk
          simpa [hitStep, Sample.enterStep, e] using ih2 m hk
      | false => simpa [hitStep, Sample.enterStep] using ih2 m hk
    | remove i => simpa [hitStep, Sample.enterStep] using ih2 m hk
    | evict r => simpa [hitStep, Sample.enterStep] using ih2 m hk

/-- The victims of the eviction loop; `sc` gives the scores at the time. -/
theorem loop_victims (R : Rounding) (hn : 0 < n) (r : Req) (hr : r.size + md ≤ cs) (sc : ObjId × Nat → Rat) : ∀ (f : Nat) (s s' : State), Inv cs md s → New s →
    (∀ o ∈ s.base.tbl, score R o.mt.freq (s.base.nReq - o.mt.enter) = some (sc (o.id, o.size))) → (algo R n).evictLoop r f s = .ok s' →
    Inv cs md s' ∧ New s' ∧ (algo R n).mustEvict s' r = false ∧ ∃ vs, Sample.Victims n sc s.base.cached s.picks vs s'.base.cached s'.picks := by
  intro f
  induction f with
  | zero =>
    intro s s' hi hnew hsc he
    unfold Algo.evictLoop at he
    cases hme : (algo R n).mustEvict s r with
    | true => simp [hme] at he
    | false => simp [hme] at he; subst he; exact ⟨hi, hnew, hme, [], .nil _ _⟩
  | succ f ih =>
    intro s s' hi hnew hsc he
    unfold Algo.evictLoop at he
    cases hme : (algo R n).mustEvict s r with
    | false => simp [hme] at he; subst he; exact ⟨hi, hnew, hme, [], .nil _ _⟩
    | true =>
      simp only [hme, if_true] at he
      obtain ⟨o, h1, s1, h2, h3, h4, h5, _, h7, h8, h9⟩ := evict_spec R hn hi hnew ((spec R hn cs md).tbl_ne hi hr hme)
      have h2' : (algo R n).evict s r = .ok s1 := h2
      rw [h2', Res.bind_ok] at he
      have sub : ∀ x ∈ s1.base.tbl, x ∈ s.base.tbl := fun x hx => by rw [h5] at hx; exact List.mem_of_mem_eraseP hx
      obtain ⟨g1, g2, g3, vs, g4⟩ := ih s1 s' h3 h4 (fun x hx => by rw [h7]; exact hsc x (sub x hx)) he
      refine ⟨g1, g2, g3, (o.id, o.size) :: vs, .cons ?_ ?_ ?_⟩
      · rw [← draws_sampled]; exact List.mem_map_of_mem (f := fun o : Obj Meta => (o.id, o.size)) h1
      · intro x hx
        rw [← draws_sampled] at hx
        obtain ⟨y, hy, rfl⟩ := List.mem_map.1 hx
        have := h9 y hy
        rw [hsc y (draws_mem hy), hsc o (draws_mem h1)] at this
        simp only [lower, decide_eq_false_iff_not, not_lt] at this
        exact this
      · rw [← cached_erase hi.b.inv.nodup (draws_mem h1) h5, ← h8]
        exact g4

theorem bmod_small {x : Nat} {k : Nat} (h : x < 2 ^ k) : Int.bmod (x : Int) (2 ^ (k + 1)) = x := by
  have e : ((2 ^ (k + 1) : Nat) : Int) = 2 * ((2 ^ k : Nat) : Int) := by push_cast; rw [pow_succ]; ring
  have h' : (x : Int) < ((2 ^ k : Nat) : Int) := by exact_mod_cast h
  apply Int.bmod_eq_of_le <;> omega

/-- The objects' scores while the next request is handled. -/
theorem score_hist (R : Rounding) (hn : 0 < n) (cs md : Nat) (adm : Adm) (picks : List Nat) (ops : List Op) (out : List Bool) (s : State)
    (ho : ∀ op ∈ ops, Calls perms (SizeOk md) op) (h : Reaches (algo R n) (init cs md adm picks) ops out s)
    (hf : ∀ id, hitsSince (ops.zip out) id + 1 < 2 ^ 23) (hg : gets (ops.zip out) < 2 ^ 39) :
    s.base.nReq = gets (ops.zip out) ∧
    ∀ o ∈ s.base.tbl, score R o.mt.freq ((s.base.nReq + 1 : Nat) - o.mt.enter) = some (Sample.density R.rnd (ops.zip out) (o.id, o.size)) ∧
      o.mt.freq = (hitsSince (ops.zip out) o.id + 1 : Nat) ∧ o.mt.enter = Sample.enteredAt (ops.zip out) o.id := by
  have hi := (strong R hn cs md).reach (inv_init cs md adm picks) ho h
  have hh := (tagged R cs md (n := n)).reachG (spec R hn cs md).toPlain (strong R hn cs md) (fun _ _ h => h.1) (inv_init cs md adm picks) rfl rfl ops out s ho h
  have e0 : s.base.nReq = gets (ops.zip out) := by
    rw [← (hh 0).1, (hist_meta (ops.zip out) 0 ⟨0, 0⟩).1]
  refine ⟨e0, fun o hm => ?_⟩
  have hmeta : metaOf s o.id = some o.mt := by simp [metaOf, lookup_of_mem hi.b.inv.nodup hm]
  obtain ⟨g1, g2⟩ := (hist_meta (ops.zip out) o.id o.mt).2 ((hh o.id).2 o.mt hmeta)
  have hent : Sample.enteredAt (ops.zip out) o.id ≤ gets (ops.zip out) := by
    have key : ∀ (h : List (Op × Bool)) (a : Nat × Nat), a.2 ≤ a.1 → (h.foldl (Sample.enterStep o.id) a).2 ≤ (h.foldl (Sample.enterStep o.id) a).1 := by
      intro h
      induction h with
      | nil => intro a ha; exact ha
      | cons e h ih =>
        intro a ha
        rw [List.foldl_cons]
        apply ih
        obtain ⟨op, b⟩ := e
        cases op <;> cases b <;> simp only [Sample.enterStep] <;> (try split) <;> omega
    have := key (ops.zip out) (0, 0) (Nat.le_refl _)
    rw [entered_fst] at this
    exact this
  have f1 : o.mt.freq = (hitsSince (ops.zip out) o.id + 1 : Nat) := by
    rw [g1]
    have := bmod_small (k := 23) (hf o.id)
    push_cast at this ⊢
    exact this
  have f2 : o.mt.enter = Sample.enteredAt (ops.zip out) o.id := by
    rw [g2]; exact bmod_small (k := 39) (by omega)
  refine ⟨?_, f1, f2⟩
  have hfo := hf o.id
  unfold score
  rw [f1, f2, e0, R.fin (by push_cast; omega) (by push_cast; omega), if_neg (by push_cast; omega)]
  have ha : ((gets (ops.zip out) + 1 : Nat) - Sample.enteredAt (ops.zip out) o.id : Int) = ((gets (ops.zip out) + 1 - Sample.enteredAt (ops.zip out) o.id : Nat) : Int) := by
    push_cast; omega
  rw [ha, R.ints _ (by omega)]
  rfl

/-- An admitted miss: the victims are those of lowest score among the sampled objects. -/
theorem get_miss (R : Rounding) (hn : 0 < n) (cs md : Nat) (adm : Adm) (picks : List Nat) (ops : List Op) (out : List Bool) (s : State)
    (ho : ∀ op ∈ ops, Calls perms (SizeOk md) op) (h : Reaches (algo R n) (init cs md adm picks) ops out s)
    (hf : ∀ id, hitsSince (ops.zip out) id + 1 < 2 ^ 23) (hg : gets (ops.zip out) < 2 ^ 39)
    (r : Req) (hok : SizeOk md r) (hnot : r.id ∉ s.base.cached.ids) (ha : admitsBase s.base r = true) :
    ∃ s' vs kept, (algo R n).get s r = .ok (false, s') ∧
      Sample.Victims n (Sample.density R.rnd (ops.zip out)) s.base.cached s.picks vs kept s'.picks ∧ s'.base.cached = (r.id, r.size % u32) :: kept := by
  have hi := (strong R hn cs md).reach (inv_init cs md adm picks) ho h
  have S := spec R hn cs md
  obtain ⟨hb, hnew⟩ := S.bump hi
  have hl : ((algo R n).bump s).base.lookup r.id = none := lookup_none_iff'.2 hnot
  have hfm := S.findMiss r hb hl
  have hc : (algo R n).canInsert ((algo R n).bump s) r = (true, { s with base := { s.base.bump with adm := (s.base.adm.admit r).2 } }) := by
    rw [← ha]
    simp only [algo, canInsertDefault_eq]; rfl
  have hr : r.size + md ≤ cs := by
    have ha := ha
    simp only [admitsBase, Bool.and_eq_true, decide_eq_true_eq] at ha
    rw [hi.b.md, hi.b.cs] at ha
    exact ha.2
  have hi2 : Inv cs md { s with base := { s.base.bump with adm := (s.base.adm.admit r).2 } } := (S.adm (s.base.adm.admit r).2 hb).1
  have hn2 : New { s with base := { s.base.bump with adm := (s.base.adm.admit r).2 } } := (S.adm (s.base.adm.admit r).2 hb).2 hnew
  obtain ⟨s3, h1, _, _, h4, _⟩ := (strong R hn cs md).toContract.loop r hok ((algo R n).fuel _) { s with base := { s.base.bump with adm := (s.base.adm.admit r).2 } } hi2 ⟨hr, hn2⟩ hnot
    ((strong R hn cs md).fuel hi2)
  obtain ⟨g1, g2, g3, vs, g4⟩ := loop_victims R hn r hr (Sample.density R.rnd (ops.zip out)) _ _ s3 hi2 hn2
    (fun o hm => ((score_hist R hn cs md adm picks ops out s ho h hf hg).2 o hm).1) h1
  refine ⟨{ s3 with base := s3.base.insertBase { freq := 1, enter := Int.bmod s3.base.nReq (2 ^ 40) } r }, vs, s3.base.cached, get_accept hfm hc h1 ?_, g4, ?_⟩
  · simp only [algo, insert]
  · rw [cached_insertBase]

end Verif.Hyperbolic

namespace Verif.Hyperbolic
open Verif Spec Sampled

theorem toEvict_evict {R : Rounding} {n cs md : Nat} {s s1 : State} {id : ObjId} (h : Inv cs md s) (ht : toEvict R n s = .ok (some id, s1)) :
    s1.base.cached = s.base.cached ∧ ∃ s' size, evict R n s1 = .ok s' ∧ s.base.cached.Perm ((id, size) :: s'.base.cached) := by
  have hne : s.base.tbl ≠ [] := by
    intro e
    unfold toEvict at ht
    rw [e] at ht
    cases n with
    | zero => simp [pickBest] at ht
    | succ n => simp [pickBest, randObj] at ht
  obtain ⟨res, h1, h2⟩ := pickBest_spec order_lower (fun o : Obj Meta => score R o.mt.freq (s.base.nReq - o.mt.enter)) hne n s.picks none (some (10 ^ 16))
  unfold toEvict at ht
  rw [h1, Res.bind_ok] at ht
  cases res with
  | none => cases ht
  | some o =>
    cases ht
    have hm : o ∈ s.base.tbl := by
      rcases h2 with ⟨h2, _⟩ | ⟨o', h2, h3, _⟩
      · cases h2
      · cases h3; exact draws_mem h2
    obtain ⟨b', g1, _, _, _, g5, _⟩ := h.b.remove (lookup_of_mem h.b.inv.nodup hm)
    refine ⟨rfl, { base := b', picks := s.picks.drop n, cand := some o.id, candVt := -1 }, o.size, ?_, g5⟩
    simp only [evict, if_true, Option.map_some, Res.bind_ok]
    have g1' : s.base.evictBase o.id = .ok b' := g1
    rw [g1', Res.bind_ok]

/-! ### The access count wraps -/

/-- two objects of size 1 in a cache of size 2, object 1 hit `k` times and object 2 never -/
structure W (k : Nat) (s : State) : Prop where
  i : Inv 2 0 s
  adm : s.base.adm = .none
  picks : s.picks = [0, 1]
  nReq : s.base.nReq = k + 2
  tbl : ∃ o1 o2, s.base.tbl = [o2, o1] ∧ o1.id = 1 ∧ o1.size = 1 ∧ o2.id = 2 ∧ o2.size = 1 ∧ o1.mt = ⟨1, Int.bmod (k + 1) (2 ^ 24)⟩ ∧ o2.mt = ⟨2, 1⟩

theorem W.hit {k : Nat} {s : State} (h : W k s) : ∃ s', (algo .exact 2).get s ⟨1, 1, -2⟩ = .ok (true, s') ∧ W (k + 1) s' := by
  obtain ⟨o1, o2, ht, a1, a2, a3, a4, a5, a6⟩ := h.tbl
  have S := spec .exact (n := 2) (by decide) 2 0
  obtain ⟨hb, hnew⟩ := S.bump h.i
  have hl : ((algo .exact 2).bump s).base.lookup 1 = some o1 := by
    simp only [algo, Base.bump, Base.lookup, ht, List.find?_cons, a1, a3]; rfl
  obtain ⟨s', h1, h2⟩ := S.findHit ⟨1, 1, -2⟩ o1 hb hnew hl
  refine ⟨s', get_hit h1, h2, ?_, ?_, ?_, ?_⟩ <;>
  · have h1 : find ((algo .exact 2).bump s) ⟨1, 1, -2⟩ true = _ := h1
    rw [find_hit (s := (algo .exact 2).bump s) hl] at h1
    cases h1
    first
      | exact h.adm
      | exact h.picks
      | (show s.base.nReq + 1 = _; rw [h.nReq])
      | (refine ⟨hitObj ⟨1, 1, -2⟩ o1, o2, ?_, a1, a2, a3, a4, ?_, a6⟩
         · simp only [algo, Base.bump, Base.modify, ht, List.map_cons, List.map_nil, a1, a3]; rfl
         · simp only [hitObj, a5, Meta.mk.injEq, true_and]
           have bm : ∀ x : Int, Int.bmod (Int.bmod x (2 ^ 24) + 1) (2 ^ 24) = Int.bmod (x + 1) (2 ^ 24) := fun x => Int.bmod_add_bmod
           rw [bm]; push_cast; rfl)

/-- the calls: a request for 1, one for 2, then `k` for 1 -/
def wOps (k : Nat) : List Op := [.get ⟨1, 1, -2⟩, .get ⟨2, 1, -2⟩] ++ List.replicate k (.get ⟨1, 1, -2⟩)
def wOut (k : Nat) : List Bool := [false, false] ++ List.replicate k true

theorem w_run : ∀ k, ∃ s, Reaches (algo .exact 2) (init 2 0 .none [0, 1]) (wOps k) (wOut k) s ∧ W k s := by
  intro k
  induction k with
  | zero =>
    refine ⟨_, rfl, ?_, rfl, rfl, rfl, _, _, rfl, rfl, rfl, rfl, rfl, by decide +kernel, by decide +kernel⟩
    exact (strong .exact (n := 2) (by decide) 2 0).reach (ops := wOps 0) (inv_init 2 0 .none [0, 1]) (by simp [wOps, Calls, SizeOk, u32]) rfl
  | succ k ih =>
    obtain ⟨s, h1, h2⟩ := ih
    obtain ⟨s', h3, h4⟩ := h2.hit
    refine ⟨s', ?_, h4⟩
    unfold Reaches at *
    have e1 : wOps (k + 1) = wOps k ++ [.get ⟨1, 1, -2⟩] := by
      simp only [wOps, List.append_assoc, List.replicate_succ']
    have e2 : wOut (k + 1) = wOut k ++ [true] := by
      simp only [wOut, List.append_assoc, List.replicate_succ']
    rw [e1, run_append, h1]
    simp only [Res.bind_ok, Algo.run, Algo.step, h3, e2]

theorem w_zip (k : Nat) : (wOps k).zip (wOut k) = [(.get ⟨1, 1, -2⟩, false), (.get ⟨2, 1, -2⟩, false)] ++ List.replicate k (.get ⟨1, 1, -2⟩, true) := by
  simp only [wOps, wOut, List.cons_append, List.nil_append, List.zip_cons_cons, List.zip_replicate', List.cons.injEq, true_and]

theorem w_hits1 : ∀ k, hitsSince ((wOps k).zip (wOut k)) 1 = k := by
  intro k
  rw [w_zip]
  induction k with
  | zero => rfl
  | succ k ih =>
    rw [List.replicate_succ', ← List.append_assoc, hitsSince, List.foldl_append]
    rw [hitsSince] at ih
    rw [ih]; simp [hitStep]

theorem w_hits2 : ∀ k, hitsSince ((wOps k).zip (wOut k)) 2 = 0 := by
  intro k
  rw [w_zip]
  induction k with
  | zero => rfl
  | succ k ih =>
    rw [List.replicate_succ', ← List.append_assoc, hitsSince, List.foldl_append]
    rw [hitsSince] at ih
    rw [ih]; simp [hitStep]

theorem wraps : ∃ (ops : List Op) (out : List Bool) (s s' : State),
    (∀ op ∈ ops, Calls perms (SizeOk 0) op) ∧
    Reaches (algo .exact 2) (init 2 0 .none [0, 1]) ops out s ∧
    s.base.cached = [(2, 1), (1, 1)] ∧ hitsSince (ops.zip out) 1 = 2 ^ 23 - 1 ∧ hitsSince (ops.zip out) 2 = 0 ∧
    (algo .exact 2).get s ⟨3, 1, -2⟩ = .ok (false, s') ∧ s'.base.cached = [(3, 1), (2, 1)] := by
  obtain ⟨s, h1, h2⟩ := w_run (2 ^ 23 - 1)
  obtain ⟨o1, o2, ht, a1, a2, a3, a4, a5, a6⟩ := h2.tbl
  have S := spec .exact (n := 2) (by decide) 2 0
  have C := strong .exact (n := 2) (by decide) 2 0
  obtain ⟨hb, hnew⟩ := S.bump h2.i
  have hca : s.base.cached = [(2, 1), (1, 1)] := by simp only [Base.cached, ht, List.map_cons, List.map_nil, a1, a2, a3, a4]
  have hl : ((algo .exact 2).bump s).base.lookup 3 = none := by
    simp only [algo, Base.bump, Base.lookup, ht, List.find?_cons, a1, a3]; rfl
  have hocc : s.base.occ = 2 := by rw [h2.i.b.inv.occ_eq, hca, h2.i.b.md]; rfl
  obtain ⟨o, d1, s1, e1, e2, e3, e4, e5, e6, e7, e8⟩ := evict_spec .exact (n := 2) (by decide) hb hnew (by simp [algo, Base.bump, ht])
  have hd : draws ((algo .exact 2).bump s).base.tbl ((algo .exact 2).bump s).picks 2 = [o2, o1] := by
    simp only [algo, Base.bump, ht, h2.picks]; rfl
  rw [hd] at d1 e8
  have ho : o = o1 := by
    simp only [List.mem_cons, List.not_mem_nil, or_false] at d1
    rcases d1 with rfl | rfl
    · have := e8 o1 (by simp)
      have n0 : ((algo .exact 2).bump s).base.nReq = 2 ^ 23 + 2 := by
        show s.base.nReq + 1 = _; rw [h2.nReq]; norm_num
      rw [a5, a6, n0] at this
      have c : lower (score .exact (⟨1, Int.bmod ((2 ^ 23 - 1 : Nat) + 1) (2 ^ 24)⟩ : Meta).freq ((2 ^ 23 + 2 : Nat) - (⟨1, Int.bmod ((2 ^ 23 - 1 : Nat) + 1) (2 ^ 24)⟩ : Meta).enter))
        (score .exact (⟨2, 1⟩ : Meta).freq ((2 ^ 23 + 2 : Nat) - (⟨2, 1⟩ : Meta).enter)) = true := by decide +kernel
      rw [c] at this; cases this
    · rfl
  subst ho
  have hc : (algo .exact 2).canInsert ((algo .exact 2).bump s) ⟨3, 1, -2⟩ = (true, (algo .exact 2).bump s) := by
    have hadm := h2.adm
    simp only [algo, Base.bump, Base.canInsertDefault, hadm, Adm.admit, h2.i.b.md, h2.i.b.cs]
    rfl
  have hm1 : (algo .exact 2).mustEvict ((algo .exact 2).bump s) ⟨3, 1, -2⟩ = true := by
    simp only [Algo.mustEvict, decide_eq_true_eq]
    simp only [algo, Base.bump, hocc, h2.i.b.md, h2.i.b.cs]
    decide
  have hca1 : s1.base.cached = [(2, 1)] := by
    simp only [Base.cached, e4]
    simp only [algo, Base.bump, ht, List.eraseP_cons, a1, a3]
    show [(o2.id, o2.size)] = _
    rw [a3, a4]
  have hm2 : (algo .exact 2).mustEvict s1 ⟨3, 1, -2⟩ = false := by
    simp only [Algo.mustEvict, decide_eq_false_iff_not, Int.not_lt]
    simp only [algo, e2.b.inv.occ_eq, hca1, e2.b.md, e2.b.cs]
    decide
  have e1' : (algo .exact 2).evict ((algo .exact 2).bump s) ⟨3, 1, -2⟩ = .ok s1 := e1
  have hloop : (algo .exact 2).evictLoop ⟨3, 1, -2⟩ ((algo .exact 2).fuel ((algo .exact 2).bump s)) ((algo .exact 2).bump s) = .ok s1 := by
    have : (algo .exact 2).fuel ((algo .exact 2).bump s) = 3 := by simp only [algo, Base.bump, ht]; rfl
    rw [this, Algo.evictLoop]
    simp only [hm1, if_true, e1', Res.bind_ok]
    rw [Algo.evictLoop]
    simp only [hm2, Bool.false_eq_true, if_false]
  refine ⟨wOps (2 ^ 23 - 1), wOut (2 ^ 23 - 1), s, { s1 with base := s1.base.insertBase { freq := 1, enter := Int.bmod s1.base.nReq (2 ^ 40) } ⟨3, 1, -2⟩ }, ?_, h1, hca, w_hits1 _, w_hits2 _,
    get_accept (S.findMiss ⟨3, 1, -2⟩ hb hl) hc hloop (by simp only [algo, insert]), by rw [cached_insertBase, hca1]; rfl⟩
  intro op hop
  simp only [wOps, List.mem_append, List.mem_cons, List.not_mem_nil, or_false, List.mem_replicate] at hop
  rcases hop with (rfl | rfl) | ⟨_, rfl⟩ <;> simp [Calls, SizeOk, u32]

end Verif.Hyperbolic
