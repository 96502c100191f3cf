import Verif.Spec.Rename
import Verif.Spec.Textbook
import Verif.Spec.LRUProb
import Mathlib.Tactic.Linarith
/-!
# Names and units: helper lemmas
-/

namespace Verif.Spec
open Verif

variable {τ : Type}

/-- The discipline commutes with a change of names and units, made in its states by `φ`. -/
structure Equi (D : Discipline τ) (f : ObjId → ObjId) (k : Nat) (φ : τ → τ) : Prop where
  contents : ∀ t, D.contents (φ t) = (D.contents t).map fun x => (f x.1, k * x.2)
  onHit : ∀ t r, φ (D.onHit t r) = D.onHit (φ t) (renameReq f k r)
  evict : ∀ t, φ (D.evict t) = D.evict (φ t)
  insert : ∀ t r, k * r.size < u32 → φ (D.insert t r) = D.insert (φ t) (renameReq f k r)
  remove : ∀ t id, φ (D.remove t id) = D.remove (φ t) (f id)

section
variable {D : Discipline τ} {f : ObjId → ObjId} {k : Nat} {φ : τ → τ} (e : Equi D f k φ) (hf : Function.Injective f) (hk : 0 < k)
include e

theorem Equi.bytes (md : Nat) (t : τ) : Spec.bytes (k * md) (D.contents (φ t)) = k * Spec.bytes md (D.contents t) := by
  rw [e.contents]
  unfold Spec.bytes
  generalize D.contents t = l
  induction l with
  | nil => rfl
  | cons x l ih =>
    simp only [List.map_cons, List.sum_cons] at ih ⊢
    rw [ih, Nat.mul_add, Nat.mul_add]

theorem Equi.length (t : τ) : (D.contents (φ t)).length = (D.contents t).length := by rw [e.contents, List.length_map]

include hk in
theorem Equi.makeRoom (C md need : Nat) : ∀ (n : Nat) (t : τ), φ (makeRoom D C md need n t) = Spec.makeRoom D (k * C) (k * md) (k * need) n (φ t)
  | 0, t => rfl
  | n + 1, t => by
    unfold Spec.makeRoom
    have h : Spec.bytes (k * md) (D.contents (φ t)) + k * need ≤ k * C ↔ Spec.bytes md (D.contents t) + need ≤ C := by
      rw [e.bytes, ← Nat.mul_add]
      exact Nat.mul_le_mul_left_iff hk
    by_cases hb : Spec.bytes md (D.contents t) + need ≤ C
    · rw [if_pos hb, if_pos (h.2 hb)]
    · rw [if_neg hb, if_neg (fun q => hb (h.1 q)), Equi.makeRoom C md need n (D.evict t), e.evict]

/-- The state of the cache under the new names and units. -/
def rstate (φ : τ → τ) (t : TState τ) : TState τ := { t with pol := φ t.pol }

include hf in
theorem Equi.held (t : TState τ) (id : ObjId) : holds D (rstate φ t) (f id) = holds D t id := by
  unfold Spec.holds rstate
  simp only [e.contents]
  refine decide_eq_decide.2 ?_
  constructor
  · intro h
    obtain ⟨y, hy, hye⟩ := List.mem_map.1 h
    obtain ⟨x, hx, rfl⟩ := List.mem_map.1 hy
    exact List.mem_map.2 ⟨x, hx, hf hye⟩
  · intro h
    obtain ⟨x, hx, rfl⟩ := List.mem_map.1 h
    exact List.mem_map.2 ⟨_, List.mem_map.2 ⟨x, hx, rfl⟩, rfl⟩

omit e in
theorem blind_step {adm : Adm} (h : Blind adm) (r q : Req) : adm.admit r = adm.admit q ∧ Blind (adm.admit r).2 := by
  rcases h with rfl | ⟨l, rfl⟩
  · exact ⟨rfl, .inl rfl⟩
  · cases l with
    | nil => exact ⟨rfl, .inr ⟨_, rfl⟩⟩
    | cons a l => exact ⟨rfl, .inr ⟨_, rfl⟩⟩

include hf hk in
theorem Equi.step (C md : Nat) (t : TState τ) (ha : Blind t.adm) (op : Op) (hm : Measurable k md op) :
    tstep D (k * C) (k * md) (rstate φ t) (renameOp f k op) = ((tstep D C md t op).1, rstate φ (tstep D C md t op).2) ∧ Blind (tstep D C md t op).2.adm := by
  cases op with
  | get r =>
    have hs := hm r rfl
    have hsz : k * r.size < u32 := Nat.lt_of_le_of_lt (Nat.mul_le_mul_left k (Nat.le_add_right _ _)) hs
    simp only [renameOp, tstep, tget, show (renameReq f k r).id = f r.id from rfl, e.held hf]
    by_cases hh : holds D t r.id = true
    · simp only [hh, if_true]
      exact ⟨by simp [rstate, e.onHit], ha⟩
    · obtain ⟨b1, b2⟩ := blind_step ha r (renameReq f k r)
      simp only [hh, if_false, Bool.false_eq_true]
      have hadm : (rstate φ t).adm = t.adm := rfl
      rw [hadm, ← b1]
      have hc : (renameReq f k r).size + k * md ≤ k * C ↔ r.size + md ≤ C := by
        show k * r.size + k * md ≤ k * C ↔ _
        rw [← Nat.mul_add]
        exact Nat.mul_le_mul_left_iff hk
      by_cases hb : (t.adm.admit r).1 = true ∧ r.size + md ≤ C
      · rw [if_pos hb, if_pos ⟨hb.1, hc.2 hb.2⟩]
        refine ⟨?_, b2⟩
        simp only [rstate, e.length, e.insert _ _ hsz, e.makeRoom hk]
        rw [show (renameReq f k r).size + k * md = k * (r.size + md) from (Nat.mul_add _ _ _).symm]
      · rw [if_neg hb, if_neg (fun q => hb ⟨q.1, hc.1 q.2⟩)]
        exact ⟨rfl, b2⟩
  | find r u =>
    simp only [renameOp, tstep, show (renameReq f k r).id = f r.id from rfl, e.held hf]
    by_cases hh : u = true ∧ holds D t r.id = true
    · rw [if_pos hh, if_pos hh]
      exact ⟨by simp [rstate, e.onHit], ha⟩
    · rw [if_neg hh, if_neg hh]
      exact ⟨rfl, ha⟩
  | remove id =>
    simp only [renameOp, tstep, e.held hf]
    by_cases hh : holds D t id = true
    · rw [if_pos hh, if_pos hh]
      exact ⟨by simp [rstate, e.remove], ha⟩
    · rw [if_neg hh, if_neg hh]
      exact ⟨rfl, ha⟩
  | evict r =>
    simp only [renameOp, tstep]
    have hc : D.contents (rstate φ t).pol = [] ↔ D.contents t.pol = [] := by
      show D.contents (φ t.pol) = [] ↔ _
      rw [e.contents, List.map_eq_nil_iff]
    by_cases hh : D.contents t.pol = []
    · rw [if_pos hh, if_pos (hc.2 hh)]
      exact ⟨rfl, ha⟩
    · rw [if_neg hh, if_neg (fun q => hh (hc.1 q))]
      exact ⟨by simp [rstate, e.evict], ha⟩
  | insert r =>
    have hs := hm r rfl
    have hsz : k * r.size < u32 := Nat.lt_of_le_of_lt (Nat.mul_le_mul_left k (Nat.le_add_right _ _)) hs
    simp only [renameOp, tstep, show (renameReq f k r).id = f r.id from rfl, e.held hf]
    have hc : Spec.bytes (k * md) (D.contents (rstate φ t).pol) + (renameReq f k r).size + k * md ≤ k * C ↔ Spec.bytes md (D.contents t.pol) + r.size + md ≤ C := by
      show Spec.bytes (k * md) (D.contents (φ t.pol)) + k * r.size + k * md ≤ k * C ↔ _
      rw [e.bytes, ← Nat.mul_add, ← Nat.mul_add]
      exact Nat.mul_le_mul_left_iff hk
    by_cases hb : holds D t r.id = false ∧ Spec.bytes md (D.contents t.pol) + r.size + md ≤ C
    · rw [if_pos hb, if_pos ⟨hb.1, hc.2 hb.2⟩]
      exact ⟨by simp [rstate, e.insert _ _ hsz], ha⟩
    · rw [if_neg hb, if_neg (fun q => hb ⟨q.1, hc.1 q.2⟩)]
      exact ⟨rfl, ha⟩

include hf hk in
theorem Equi.run (C md : Nat) : ∀ (ops : List Op) (t : TState τ), Blind t.adm → (∀ op ∈ ops, Measurable k md op) →
    trun D (k * C) (k * md) (rstate φ t) (ops.map (renameOp f k)) = ((trun D C md t ops).1, rstate φ (trun D C md t ops).2)
  | [], t, _, _ => rfl
  | op :: ops, t, ha, hm => by
    obtain ⟨h1, h2⟩ := e.step hf hk C md t ha op (hm op List.mem_cons_self)
    have ih := Equi.run C md ops (tstep D C md t op).2 h2 fun o ho => hm o (List.mem_cons_of_mem _ ho)
    simp only [List.map_cons, trun, h1, ih]

end

theorem namesAndUnits {σ : Type} {A : Algo σ} {mk : Nat → Nat → Adm → σ} {okOp : Nat → Nat → Op → Prop} {D : Discipline τ} {t0 : τ} {view : σ → TState τ}
    (hF : ∀ cs md adm, Follows A (mk cs md adm) (okOp cs md) D cs md ⟨t0, adm⟩ view)
    (hE : ∀ f k, Function.Injective f → 0 < k → ∃ φ, Equi D f k φ ∧ φ t0 = t0)
    (hok : ∀ f k cs md op, 0 < k → okOp cs md op → Measurable k md op → okOp (k * cs) (k * md) (renameOp f k op)) :
    NamesAndUnits A mk okOp := by
  intro f k hf hk cs md adm hb ops hops
  obtain ⟨φ, e, e0⟩ := hE f k hf hk
  obtain ⟨out, s, h1, h2⟩ := hF cs md adm ops fun op ho => (hops op ho).1
  obtain ⟨out', s', h3, h4⟩ := hF (k * cs) (k * md) adm (ops.map (renameOp f k)) fun op ho => by
    obtain ⟨o, ho', rfl⟩ := List.mem_map.1 ho
    exact hok f k cs md o hk (hops o ho').1 (hops o ho').2
  have h5 := e.run hf hk cs md ops ⟨t0, adm⟩ hb fun op ho => (hops op ho).2
  have e1 : rstate φ ⟨t0, adm⟩ = ⟨t0, adm⟩ := by unfold rstate; simp [e0]
  rw [e1, h4, h2] at h5
  have : out' = out := congrArg Prod.fst h5
  exact ⟨out, s, s', h1, this ▸ h3⟩

theorem calls_rename {p : Perms} (f : ObjId → ObjId) (k md : Nat) (op : Op) (h : Calls p (SizeOk md) op) (hm : Measurable k md op) : Calls p (SizeOk (k * md)) (renameOp f k op) := by
  have key : ∀ r, insertedBy op = some r → SizeOk (k * md) (renameReq f k r) := fun r hr => by
    have h1 := hm r hr
    show k * r.size % u32 + k * md < u32
    rw [Nat.mul_add] at h1
    rw [Nat.mod_eq_of_lt (by omega)]
    exact h1
  cases op with
  | get r => exact key r rfl
  | find r u => exact h
  | remove id => exact h
  | evict r => exact h
  | insert r => exact ⟨h.1, key r rfl⟩

/-! ## The disciplines -/

section
variable (f : ObjId → ObjId) (k : Nat)

/-- New names and units for a list of objects. -/
def rcontents (l : Contents) : Contents := l.map fun x => (f x.1, k * x.2)

variable {f k} (hf : Function.Injective f)

theorem size_mod {n : Nat} (hk : 0 < k) (h : k * n < u32) : k * (n % u32) = k * n % u32 := by
  have : n < u32 := Nat.lt_of_le_of_lt (Nat.le_mul_of_pos_left n hk) h
  rw [Nat.mod_eq_of_lt this, Nat.mod_eq_of_lt h]

include hf in
theorem rcontents_eq (l : Contents) (id : ObjId) : (rcontents f k l).filter (fun x => x.1 = f id) = rcontents f k (l.filter fun x => x.1 = id) := by
  unfold rcontents
  rw [List.filter_map]
  congr 1
  refine List.filter_congr fun x _ => ?_
  simp [hf.eq_iff]

include hf in
theorem rcontents_ne (l : Contents) (id : ObjId) : (rcontents f k l).filter (fun x => x.1 ≠ f id) = rcontents f k (l.filter fun x => x.1 ≠ id) := by
  unfold rcontents
  rw [List.filter_map]
  congr 1
  refine List.filter_congr fun x _ => ?_
  simp [hf.eq_iff]

include hf in
theorem rcontents_toFront (l : Contents) (id : ObjId) : rcontents f k (toFront l id) = toFront (rcontents f k l) (f id) := by
  unfold toFront
  rw [rcontents_eq hf, rcontents_ne hf]
  exact List.map_append

theorem rcontents_cons (hk : 0 < k) (l : Contents) (r : Req) (h : k * r.size < u32) :
    rcontents f k ((r.id, r.size % u32) :: l) = ((renameReq f k r).id, (renameReq f k r).size % u32) :: rcontents f k l := by
  show (f r.id, k * (r.size % u32)) :: _ = _
  rw [size_mod hk h]
  rfl

include hf in
theorem equi_lru (hk : 0 < k) : Equi lru f k (rcontents f k) where
  contents := fun _ => rfl
  onHit := fun l r => rcontents_toFront hf l r.id
  evict := fun l => List.map_dropLast
  insert := fun l r h => rcontents_cons hk l r h
  remove := fun l id => (rcontents_ne hf l id).symm

include hf in
theorem equi_fifo (hk : 0 < k) : Equi fifo f k (rcontents f k) where
  contents := fun _ => rfl
  onHit := fun l r => rfl
  evict := fun l => List.map_dropLast
  insert := fun l r h => rcontents_cons hk l r h
  remove := fun l id => (rcontents_ne hf l id).symm

include hf in
theorem equi_mru (hk : 0 < k) : Equi mru f k (rcontents f k) where
  contents := fun _ => rfl
  onHit := fun l r => rcontents_toFront hf l r.id
  evict := fun l => List.map_tail
  insert := fun l r h => rcontents_cons hk l r h
  remove := fun l id => (rcontents_ne hf l id).symm

include hf in
theorem equi_lruProb (n : Nat) (hk : 0 < k) : Equi (lruProb n) f k (fun t => (rcontents f k t.1, t.2)) where
  contents := fun _ => rfl
  onHit := fun t r => by
    simp only [lruProb]
    split
    · rw [rcontents_toFront hf]; rfl
    · rfl
  evict := fun t => by simp only [lruProb]; rw [rcontents, List.map_dropLast]; rfl
  insert := fun t r h => by simp only [lruProb]; rw [rcontents_cons hk _ r h]
  remove := fun t id => by simp only [lruProb]; rw [rcontents_ne hf]

/-! ### Items -/

variable (f k) in
/-- New name and units for an object with a counter. -/
def ritem (x : Item) : Item := { x with id := f x.id, size := k * x.size }

theorem ritem_new (hk : 0 < k) (r : Req) (c : Nat) (h : k * r.size < u32) : ritem f k ⟨r.id, r.size % u32, c⟩ = ⟨(renameReq f k r).id, (renameReq f k r).size % u32, c⟩ := by
  show (⟨f r.id, k * (r.size % u32), c⟩ : Item) = _
  rw [size_mod hk h]
  rfl

theorem ritem_entries (l : List Item) : (l.map (ritem f k)).map Item.entry = (l.map Item.entry).map fun x => (f x.1, k * x.2) := by
  rw [List.map_map, List.map_map]; rfl

include hf in
theorem ritem_ne (l : List Item) (id : ObjId) : (l.map (ritem f k)).filter (fun x => x.id ≠ f id) = (l.filter fun x => x.id ≠ id).map (ritem f k) := by
  rw [List.filter_map]
  congr 1
  refine List.filter_congr fun x _ => ?_
  simp [ritem, hf.eq_iff]

theorem ritem_clockEvict (l : List Item) : (clockEvict l).map (ritem f k) = clockEvict (l.map (ritem f k)) := by
  induction l using clockEvict.induct with
  | case1 => simp [clockEvict]
  | case2 x l h => rw [List.map_cons, clockEvict, clockEvict, if_pos h, if_pos (by exact h)]
  | case3 x l h ih =>
    rw [List.map_cons, clockEvict, clockEvict, if_neg h, if_neg (by exact h), ih, List.map_append]
    rfl

include hf in
theorem equi_clock (m : Nat) (hk : 0 < k) : Equi (clock m) f k (List.map (ritem f k)) where
  contents := fun l => ritem_entries l
  onHit := fun l r => by
    simp only [clock, List.map_map]
    refine List.map_congr_left fun x _ => ?_
    simp only [Function.comp]
    by_cases h : x.id = r.id ∧ x.cnt < m
    · rw [if_pos h, if_pos ⟨congrArg f h.1, h.2⟩]; rfl
    · rw [if_neg h, if_neg (fun q => h ⟨hf q.1, q.2⟩)]
  evict := fun l => ritem_clockEvict l
  insert := fun l r h => by simp only [clock, List.map_append, List.map_cons, List.map_nil, ritem_new hk r 0 h]
  remove := fun l id => (ritem_ne hf l id).symm

variable (f k) in
/-- New names and units for a SIEVE queue. -/
def rsieve (t : SieveState) : SieveState := ⟨t.passed.map (ritem f k), t.ahead.map (ritem f k)⟩

theorem rsieve_wrap (t : SieveState) : rsieve f k t.wrap = (rsieve f k t).wrap := by
  obtain ⟨p, a⟩ := t
  cases a <;> rfl

theorem rsieve_scan : ∀ (n : Nat) (t : SieveState), rsieve f k (sieveScan n t) = sieveScan n (rsieve f k t)
  | 0, t => rfl
  | n + 1, t => by
    unfold sieveScan
    rw [← rsieve_wrap]
    generalize t.wrap = w
    obtain ⟨p, a⟩ := w
    cases a with
    | nil => rfl
    | cons x a =>
      simp only [rsieve, List.map_cons]
      by_cases h : x.cnt = 0
      · rw [if_pos h, if_pos (by exact h)]
        exact rsieve_wrap ⟨p, a⟩
      · rw [if_neg h, if_neg (by exact h)]
        have := rsieve_scan n ⟨p ++ [{ x with cnt := x.cnt - 1 }], a⟩
        simp only [rsieve, List.map_append, List.map_cons, List.map_nil] at this
        exact this

include hf in
theorem equi_sieve (hk : 0 < k) : Equi sieve f k (rsieve f k) where
  contents := fun t => by
    simp only [sieve, rsieve, ← List.map_append]
    exact ritem_entries _
  onHit := fun t r => by
    have key : ∀ l : List Item, (l.map fun x => if x.id = r.id then { x with cnt := 1 } else x).map (ritem f k) =
        (l.map (ritem f k)).map fun x => if x.id = f r.id then { x with cnt := 1 } else x := fun l => by
      rw [List.map_map, List.map_map]
      refine List.map_congr_left fun x _ => ?_
      simp only [Function.comp]
      by_cases h : x.id = r.id
      · rw [if_pos h, if_pos (show (ritem f k x).id = f r.id from congrArg f h)]; rfl
      · rw [if_neg h, if_neg (show ¬ (ritem f k x).id = f r.id from fun q => h (hf q))]
    simp only [sieve, rsieve, key]
    rfl
  evict := fun t => by
    simp only [sieve]
    rw [rsieve_scan]
    congr 2
    simp only [rsieve, ← List.map_append, List.map_map]
    rfl
  insert := fun t r h => by simp only [sieve, rsieve, List.map_append, List.map_cons, List.map_nil, ritem_new hk r 0 h]
  remove := fun t id => by
    simp only [sieve]
    rw [rsieve_wrap]
    simp only [rsieve, ritem_ne hf]

theorem ritem_place (l : List Item) (x : Item) : (placeByCount l x).map (ritem f k) = placeByCount (l.map (ritem f k)) (ritem f k x) := by
  simp only [placeByCount, List.map_append, List.map_cons, List.filter_map]
  rfl

include hf in
theorem equi_lfu (hk : 0 < k) : Equi lfu f k (List.map (ritem f k)) where
  contents := fun l => ritem_entries l
  onHit := fun l r => by
    simp only [lfu]
    have e : (l.map (ritem f k)).find? (fun x => x.id = (renameReq f k r).id) = (l.find? fun x => x.id = r.id).map (ritem f k) := by
      rw [List.find?_map]
      congr 1
      refine congrArg (fun p => l.find? p) ?_
      funext x
      simp [ritem, renameReq, hf.eq_iff]
    rw [e]
    cases l.find? (fun x => x.id = r.id) with
    | none => rfl
    | some x =>
      simp only [Option.map_some]
      rw [ritem_place, ← ritem_ne hf]
      rfl
  evict := fun l => List.map_tail
  insert := fun l r h => by simp only [lfu, ritem_place, ritem_new hk r 1 h]
  remove := fun l id => (ritem_ne hf l id).symm

end

end Verif.Spec
