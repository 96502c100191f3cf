import Verif.Algo.PQCache
import Verif.Proof.PQueue
import Verif.Proof.SingleBase
import Verif.Proof.Tag
/-!
# Caches with a priority queue: invariant, contract and the priorities
-/

namespace Verif

section base
variable {μ : Type}

theorem eraseP_modify (l : List (Obj μ)) (id : ObjId) (f : Obj μ → Obj μ) (hid : ∀ o, (f o).id = o.id) (hn : (l.map (·.id)).Nodup) :
    (l.map (fun o => if o.id = id then f o else o)).eraseP (fun o => o.id == id) = l.eraseP (fun o => o.id == id) := by
  induction l with
  | nil => rfl
  | cons a l ih =>
    simp only [List.map_cons, List.nodup_cons, List.mem_map, not_exists, not_and] at hn
    by_cases h : a.id = id
    · simp only [List.map_cons, h, if_true]
      rw [List.eraseP_cons_of_pos (by simp [hid, h]), List.eraseP_cons_of_pos (by simp [h])]
      conv_rhs => rw [← List.map_id l]
      apply List.map_congr_left
      intro o ho
      have : o.id ≠ id := fun e => hn.1 o ho (e.trans h.symm)
      simp [this]
    · simp only [List.map_cons, h, if_false]
      rw [List.eraseP_cons_of_neg (by simpa using h), List.eraseP_cons_of_neg (by simpa using h), ih hn.2]

/-- Writing to an object that is then removed has no effect. -/
theorem removeObjBase_modify {b : Base μ} (hn : (b.tbl.map (·.id)).Nodup) {id : ObjId} {o : Obj μ} (ho : b.lookup id = some o) (f : Obj μ → Obj μ)
    (hid : ∀ o, (f o).id = o.id) (hsz : ∀ o, (f o).size = o.size) : (b.modify id f).removeObjBase id = b.removeObjBase id := by
  unfold Base.removeObjBase
  rw [lookup_modify_self hid ho, ho]
  simp only [Base.del, Base.modify, hsz]
  rw [eraseP_modify _ _ _ hid hn]

theorem modify_insert {b : Base μ} {r : Req} (z z' : μ) (hn : b.lookup r.id = none) :
    (b.insertBase z r).modify r.id (fun o => { o with mt := z' }) = b.insertBase z' r := by
  rw [lookup_none_iff] at hn
  simp only [Base.insertBase, Base.modify, Obj.ofReq, List.map_cons, if_true]
  congr 1
  congr 1
  conv_rhs => rw [← List.map_id b.tbl]
  apply List.map_congr_left
  intro o ho
  simp [hn o ho]

theorem tbl_of_remove {b b' : Base μ} {id : ObjId} {o : Obj μ} (ho : b.lookup id = some o) (h : b.removeObjBase id = .ok b') :
    b'.tbl = b.tbl.eraseP (fun o => o.id == id) := by
  unfold Base.removeObjBase at h
  rw [ho] at h
  cases h; rfl

end base

theorem PQueue.Inv.perm {P : Type} [LinearOrder P] {q : PQueue.Q P} {M M' : List PQueue.Node} (h : PQueue.Inv q M) (p : M.Perm M') : PQueue.Inv q M' :=
  ⟨h.av, h.stp, by rw [← p.length_eq]; exact h.len, p.nodup_iff.1 h.nd,
    fun j j1 j2 => by obtain ⟨y, a, b, c⟩ := h.el j j1 j2; exact ⟨y, a, b, p.mem_iff.1 c⟩,
    fun y hy => h.sur y (p.mem_iff.2 hy), h.ord⟩

namespace PQCache
open Spec PQueue

/-- the queue nodes of the cached objects -/
def nodes (l : List (Obj (Option Node))) : List Node := l.filterMap (·.mt)

structure Inv (cs md : Nat) (s : State) : Prop where
  base : BInv cs md s.base
  node : ∀ o ∈ s.base.tbl, ∃ n, o.mt = some n ∧ s.nodeId n = o.id ∧ n < s.fresh
  heap : PQueue.Inv s.pq (nodes s.base.tbl)

/-- The priority recorded for an object: what the queue holds for it. -/
def keyOf (s : State) (id : ObjId) : Option Int := (s.base.lookup id).bind (fun o => o.mt.map s.pq.pri)

theorem inv_init (cs md : Nat) (adm : Adm) : Inv cs md (init cs md adm) := by
  refine ⟨⟨⟨by simp [init, Base.init], by simp [init, Base.init, Base.cached, charge], by simp [init, Base.init], by simp [init, Base.init],
    by simp [init, Base.init]⟩, rfl, rfl⟩, by simp [init, Base.init], ?_⟩
  simp only [init, Base.init, nodes, List.filterMap_nil]
  exact init_inv _ _ _

variable {cs md : Nat} {s : State} {key : Req → Int}

theorem Inv.nodesMem (h : Inv cs md s) {n : Node} : n ∈ nodes s.base.tbl ↔ ∃ o ∈ s.base.tbl, o.mt = some n := by
  simp [nodes]

theorem Inv.nodeOf (h : Inv cs md s) {id : ObjId} {o} (ho : s.base.lookup id = some o) :
    ∃ n, o.mt = some n ∧ s.nodeId n = id ∧ n < s.fresh ∧ n ∈ nodes s.base.tbl := by
  obtain ⟨hm, hid⟩ := lookup_some_mem ho
  obtain ⟨n, h1, h2, h3⟩ := h.node o hm
  exact ⟨n, h1, by rw [h2, hid], h3, h.nodesMem.2 ⟨o, hm, h1⟩⟩

theorem nodes_modify (l : List (Obj (Option Node))) (id : ObjId) (f : Obj (Option Node) → Obj (Option Node)) (hf : ∀ o, (f o).mt = o.mt) :
    nodes (l.map (fun o => if o.id = id then f o else o)) = nodes l := by
  simp only [nodes, List.filterMap_map]
  congr 1
  funext o
  simp only [Function.comp]
  split <;> simp [hf]

theorem find_false (s : State) (r : Req) : find key s r false = .ok ((s.base.lookup r.id).isSome, s) := by
  simp [find, findBase_false]

theorem find_miss {r : Req} (ho : s.base.lookup r.id = none) : find key s r true = .ok (false, s) := by
  simp [find, findBase_miss ho]

theorem find_hit (h : Inv cs md s) {r : Req} {o} (ho : s.base.lookup r.id = some o) :
    ∃ s', find key s r true = .ok (true, s') ∧ Inv cs md s' ∧ s'.base = s.base.modify r.id (touch r) ∧
      ∀ id, keyOf s' id = if id = r.id then some (key r) else keyOf s id := by
  obtain ⟨n, h1, h2, h3, h4⟩ := h.nodeOf ho
  obtain ⟨q', c1, c2, c3⟩ := changePriority_spec h.heap h4 (key r)
  refine ⟨{ s with base := s.base.modify r.id (touch r), pq := q' }, ?_, ⟨?_, ?_, ?_⟩, rfl, ?_⟩
  · simp [find, findBase_hit ho, touch, h1, c1]
  · exact h.base.modify _ _ (fun _ => rfl) (fun _ => rfl)
  · intro o' ho'
    simp only [Base.modify, List.mem_map] at ho'
    obtain ⟨o2, ho2, rfl⟩ := ho'
    obtain ⟨m, e1, e2, e3⟩ := h.node o2 ho2
    refine ⟨m, ?_, ?_, e3⟩
    · split <;> simp [touch, e1]
    · split <;> simp [touch, e2]
  · simp only [Base.modify]
    rw [nodes_modify _ _ (touch r) (fun _ => rfl)]
    exact c2
  · intro id
    by_cases hid : id = r.id
    · subst hid
      simp only [keyOf, lookup_modify_self (f := touch r) (fun _ => rfl) ho, if_true, Option.bind_some, touch, h1, Option.map_some, c3, setPri]
    · simp only [keyOf, lookup_modify_ne (f := touch r) (fun _ => rfl) hid, if_neg hid]
      cases hl : s.base.lookup id with
      | none => rfl
      | some o' =>
        obtain ⟨m, e1, e2, e3, e4⟩ := h.nodeOf hl
        have : m ≠ n := by rintro rfl; exact hid (e2.symm.trans h2)
        simp [e1, c3, setPri, this]

theorem insert_spec (h : Inv cs md s) {r : Req} (hn : s.base.lookup r.id = none) (hroom : s.base.occ + r.size + md ≤ cs) (hok : SizeOk md r) :
    ∃ s', insert key s r = .ok s' ∧ Inv cs md s' ∧ s'.base = s.base.insertBase (some s.fresh) r ∧
      ∀ id, keyOf s' id = if id = r.id then some (key r) else keyOf s id := by
  have hfr : s.fresh ∉ nodes s.base.tbl := by
    intro hm
    obtain ⟨o, ho, e⟩ := h.nodesMem.1 hm
    obtain ⟨n, e1, _, e3⟩ := h.node o ho
    rw [e] at e1; cases e1; exact Nat.lt_irrefl _ e3
  obtain ⟨q', c1, c2, c3⟩ := PQueue.insert_spec (h.heap.setPri_out hfr (key r)) hfr
  refine ⟨{ base := s.base.insertBase (some s.fresh) r, pq := q', nodeId := fun m => if m = s.fresh then r.id else s.nodeId m, fresh := s.fresh + 1 },
    ?_, ⟨?_, ?_, ?_⟩, rfl, ?_⟩
  · simp only [insert, c1, Res.bind_ok]
    rw [modify_insert none (some s.fresh) hn]
  · exact h.base.insert _ r (lookup_none_iff'.1 hn) hroom hok
  · intro o ho
    simp only [Base.insertBase, List.mem_cons] at ho
    rcases ho with rfl | ho
    · exact ⟨s.fresh, rfl, by simp [Obj.ofReq], by simp⟩
    · obtain ⟨n, e1, e2, e3⟩ := h.node o ho
      refine ⟨n, e1, ?_, Nat.lt_succ_of_lt e3⟩
      have : n ≠ s.fresh := Nat.ne_of_lt e3
      simp [this, e2]
  · simpa [Base.insertBase, nodes, Obj.ofReq] using c2
  · intro id
    by_cases hid : id = r.id
    · subst hid
      simp [keyOf, Base.lookup, Base.insertBase, Obj.ofReq, c3, setPri]
    · have e : (s.base.insertBase (some s.fresh) r).lookup id = s.base.lookup id := by
        simp only [Base.lookup, Base.insertBase, Obj.ofReq, List.find?_cons]
        have : (r.id == id) = false := by simpa using fun e => hid e.symm
        simp [this]
      simp only [keyOf, e, if_neg hid]
      cases hl : s.base.lookup id with
      | none => rfl
      | some o' =>
        obtain ⟨m, e1, e2, e3, e4⟩ := h.nodeOf hl
        have : m ≠ s.fresh := Nat.ne_of_lt e3
        simp [e1, c3, setPri, this]

/-- Removing the object `o` and its node from table and heap. -/
theorem drop_spec (h : Inv cs md s) {o : Obj (Option Node)} {n : Node} (ho : s.base.lookup o.id = some o) (hm : o.mt = some n) {q' : Q Int}
    (hq : PQueue.Inv q' ((nodes s.base.tbl).erase n)) (hp : q'.pri = s.pq.pri) :
    ∃ b', (s.base.modify o.id (fun o => { o with mt := none })).removeObjBase o.id = .ok b' ∧ Inv cs md { s with base := b', pq := q' } ∧
      s.base.cached.Perm ((o.id, o.size) :: b'.cached) ∧ b'.adm = s.base.adm ∧
      ∀ id, keyOf { s with base := b', pq := q' } id = if id = o.id then none else keyOf s id := by
  obtain ⟨b', h1, h2, h3, h4, h5, h6, h7⟩ := h.base.remove ho
  refine ⟨b', ?_, ⟨h2, ?_, ?_⟩, h5, h6, ?_⟩
  · exact (removeObjBase_modify h.base.inv.nodup ho (fun o => { o with mt := none }) (fun _ => rfl) (fun _ => rfl)).trans h1
  · intro o' ho'
    exact h.node o' (h4.symm.subset (by simp [ho']))
  · refine hq.perm ?_
    have : (nodes s.base.tbl).Perm (n :: nodes b'.tbl) := by
      have := h4.filterMap (·.mt)
      simpa [nodes, hm] using this
    have := this.erase n
    simpa using this
  · intro id
    have hnd := h.base.inv.nodup
    by_cases hid : id = o.id
    · subst hid
      have hno : b'.lookup o.id = none := by
        rw [lookup_none_iff]
        intro o' ho' e
        have h8 := (h4.map (·.id)).nodup_iff.1 hnd
        simp only [List.map_cons, List.nodup_cons, List.mem_map, not_exists, not_and] at h8
        exact h8.1 o' ho' e
      simp [keyOf, hno]
    · have e : b'.lookup id = s.base.lookup id := by
        unfold Base.lookup
        rw [h3]
        exact find_eraseP_ne _ hid
      simp only [keyOf, e, if_neg hid, hp]
where
  find_eraseP_ne {l : List (Obj (Option Node))} (id' : ObjId) {id : ObjId} (hne : id ≠ id') :
      (l.eraseP (fun o => o.id == id')).find? (fun o => o.id == id) = l.find? (fun o => o.id == id) := by
    induction l with
    | nil => rfl
    | cons a l ih =>
      by_cases ha : a.id = id'
      · rw [List.eraseP_cons_of_pos (by simpa using ha), List.find?_cons]
        have : (a.id == id) = false := by rw [ha]; simpa using fun e => hne e.symm
        simp [this]
      · rw [List.eraseP_cons_of_neg (by simpa using ha), List.find?_cons, List.find?_cons, ih]

theorem evict_spec (h : Inv cs md s) (hne : s.base.tbl ≠ []) :
    ∃ s' o k, evict s = .ok s' ∧ Inv cs md s' ∧ s.base.cached.Perm ((o.id, o.size) :: s'.base.cached) ∧ s.base.lookup o.id = some o ∧
      s'.base.adm = s.base.adm ∧ toEvict s = some o.id ∧ keyOf s o.id = some k ∧ (∀ id k', keyOf s id = some k' → k' ≤ k) ∧
      ∀ id, keyOf s' id = if id = o.id then none else keyOf s id := by
  have hM : nodes s.base.tbl ≠ [] := by
    obtain ⟨o, l, e⟩ := List.exists_cons_of_ne_nil hne
    obtain ⟨n, h1, _⟩ := h.node o (by rw [e]; simp)
    intro hh
    have : n ∈ nodes s.base.tbl := h.nodesMem.2 ⟨o, by rw [e]; simp, h1⟩
    rw [hh] at this; simp at this
  obtain ⟨x, q', p1, p2, p3, p4, p5, p6⟩ := pop_spec h.heap hM
  obtain ⟨o, ho, hx⟩ := h.nodesMem.1 p2
  obtain ⟨n, e1, e2, e3⟩ := h.node o ho
  rw [hx] at e1; cases e1
  have hl := lookup_of_mem h.base.inv.nodup ho
  obtain ⟨b', d1, d2, d3, d5, d4⟩ := drop_spec h hl hx p4 p5
  refine ⟨{ s with base := b', pq := q' }, o, s.pq.pri x, ?_, d2, d3, hl, d5, ?_, ?_, ?_, d4⟩
  · simp only [evict, p1, Res.bind_ok, e2, hl, Base.evictBase, d1]
  · simp only [toEvict, p6, e2, hl, Option.map_some]
  · simp [keyOf, hl, hx]
  · intro id k' hk
    unfold keyOf at hk
    cases hl' : s.base.lookup id with
    | none => rw [hl'] at hk; simp at hk
    | some o' =>
      obtain ⟨m, g1, g2, g3, g4⟩ := h.nodeOf hl'
      rw [hl'] at hk
      simp only [Option.bind_some, g1, Option.map_some, Option.some.injEq] at hk
      rw [← hk]
      exact p3 m g4

theorem remove_hit (h : Inv cs md s) {id : ObjId} {o} (ho : s.base.lookup id = some o) :
    ∃ s', remove s id = .ok (true, s') ∧ Inv cs md s' ∧ s.base.cached.Perm ((o.id, o.size) :: s'.base.cached) ∧
      ∀ i, keyOf s' i = if i = id then none else keyOf s i := by
  obtain ⟨n, h1, h2, h3, h4⟩ := h.nodeOf ho
  obtain ⟨q', r1, r2, r3⟩ := remove_spec h.heap h4
  have hid := (lookup_some_mem ho).2
  obtain ⟨b', d1, d2, d3, d5, d4⟩ := drop_spec h (by rw [hid]; exact ho) h1 r2 r3
  refine ⟨{ s with base := b', pq := q' }, ?_, d2, d3, by rw [hid] at d4; exact d4⟩
  simp only [remove, ho, h1, r1, Res.bind_ok, d1]

theorem remove_miss {id : ObjId} (hn : s.base.lookup id = none) : remove s id = .ok (false, s) := by simp [remove, hn]

theorem Inv.frame (h : Inv cs md s) (n : Nat) (a : Adm) : Inv cs md { s with base := { s.base with nReq := n, adm := a } } :=
  ⟨⟨⟨h.base.inv.nodup, h.base.inv.occ_eq, h.base.inv.nObj_eq, h.base.inv.cap, h.base.inv.small⟩, h.base.cs, h.base.md⟩, h.node, h.heap⟩

/-- what a rejected request must not touch -/
structure Core where
  tbl : List (Obj (Option Node))
  occ : Int
  nObj : Int
  pq : Q Int
  nodeId : Node → ObjId
  fresh : Node

def core (s : State) : Core := ⟨s.base.tbl, s.base.occ, s.base.nObj, s.pq, s.nodeId, s.fresh⟩

/-- The contract, for any `insert` that on permitted requests is the one above. -/
theorem spec (cs md : Nat) (key : Req → Int) (ins : State → Req → Res State) (ok : Req → Prop) (hok : ∀ r, ok r → SizeOk md r)
    (hins : ∀ s r, ok r → ins s r = insert key s r) :
    SBSpec (algoWith key ins) (fun s => s.base) (fun s b => { s with base := b }) (Inv cs md) cs md {} ok where
  base_set := fun _ _ => rfl
  occ := fun _ => rfl
  nObj := fun _ => rfl
  csz := fun _ => rfl
  mdz := fun _ => rfl
  bumpEq := fun _ => rfl
  canEq := fun _ _ => rfl
  fuel := fun _ => Nat.le_refl _
  inv := fun h => h.base
  frame := fun n a h => h.frame n a
  findF := fun r _ => find_false (key := key) _ r
  findHit := fun {s} r o h ho => by
    obtain ⟨s', h1, h2, h3, _⟩ := find_hit (key := key) h ho
    refine ⟨s', h1, h2, ?_⟩
    simp only [h3]
    rw [Base.cached_modify _ _ (touch r) (fun _ => rfl) (fun _ => rfl)]
  findMiss := fun r _ ho => find_miss (key := key) ho
  evict := fun {s} r h hne _ => by
    obtain ⟨s', o, k, h1, h2, h3, _⟩ := evict_spec h hne
    exact ⟨s', _, h1, h2, h3⟩
  insert := fun {s} r h hn hroom hk => by
    obtain ⟨s', h1, h2, h3, _⟩ := insert_spec (key := key) h hn hroom (hok r hk)
    refine ⟨s', (hins s r hk).trans h1, h2, ?_⟩
    simp only [h3]
    rw [cached_insertBase]
  removeMiss := fun _ {_} id _ hn => remove_miss hn
  removeHit := fun _ {s} id o h ho => by
    obtain ⟨s', h1, h2, h3, _⟩ := remove_hit h ho
    exact ⟨s', h1, h2, h3⟩

theorem removeObjBase_nReq {μ : Type} {b b' : Base μ} {id : ObjId} (h : b.removeObjBase id = .ok b') : b'.nReq = b.nReq := by
  unfold Base.removeObjBase at h
  split at h
  · cases h
  · cases h; rfl

theorem evict_nReq {s s' : State} (h : evict s = .ok s') : s'.base.nReq = s.base.nReq := by
  unfold evict at h
  rw [Res.bind_eq_ok] at h
  obtain ⟨p, _, h⟩ := h
  split at h
  · cases h
  · split at h
    · cases h
    · rw [Res.bind_eq_ok] at h
      obtain ⟨b, h1, h⟩ := h
      cases h
      exact (removeObjBase_nReq h1 :)

theorem remove_nReq {s s' : State} {id : ObjId} {b : Bool} (h : remove s id = .ok (b, s')) : s'.base.nReq = s.base.nReq := by
  unfold remove at h
  split at h
  · cases h; rfl
  · split at h
    · rw [Res.bind_eq_ok] at h
      obtain ⟨q, _, h⟩ := h
      rw [Res.bind_eq_ok] at h
      obtain ⟨b, h1, h⟩ := h
      cases h
      exact (removeObjBase_nReq h1 :)
    · rw [Res.bind_eq_ok] at h
      obtain ⟨b, h1, h⟩ := h
      cases h
      exact (removeObjBase_nReq h1 :)

theorem tagged (cs md : Nat) (key : Req → Int) (ins : State → Req → Res State) (ok : Req → Prop) (hok : ∀ r, ok r → SizeOk md r)
    (hins : ∀ s r, ok r → ins s r = insert key s r) :
    Tagged (algoWith key ins) (fun s => s.base) (fun s b => { s with base := b }) (Inv cs md) cs md {} ok keyOf (fun _ r _ => key r) (fun _ r => key r) where
  dom := fun id _ hl => by simp [keyOf, hl]
  ex := fun {s} id o h hl => by
    obtain ⟨n, h1, _⟩ := h.nodeOf hl
    exact ⟨s.pq.pri n, by simp [keyOf, hl, h1]⟩
  frame := fun _ _ _ _ => rfl
  hit := fun {s s'} r o h ho hf => by
    obtain ⟨s'', h1, _, h3, h4⟩ := find_hit (key := key) h ho
    have hf' : find key s r true = .ok (true, s') := hf
    rw [h1] at hf'; cases hf'
    refine ⟨by rw [h3]; rfl, fun id => ?_⟩
    rw [h4]
    by_cases e : id = r.id
    · subst e
      obtain ⟨n, h5, _⟩ := h.nodeOf ho
      have : keyOf s r.id = some (s.pq.pri n) := by simp [keyOf, ho, h5]
      simp [this]
    · simp [e]
  evict := fun {s s'} r h hne he => by
    refine ⟨evict_nReq he, fun id k hk => ?_⟩
    obtain ⟨s'', o, k', h1, _, _, _, _, _, _, _, h8⟩ := evict_spec h hne
    have he' : evict s = .ok s' := he
    rw [h1] at he'; cases he'
    rw [h8] at hk
    split at hk
    · cases hk
    · exact hk
  insert := fun {s s'} r h hn hroom hk hi => by
    obtain ⟨s'', h1, _, h3, h4⟩ := insert_spec (key := key) h hn hroom (hok r hk)
    have hi' : ins s r = .ok s' := hi
    rw [hins s r hk, h1] at hi'; cases hi'
    exact ⟨by rw [h3]; rfl, h4⟩
  remove := fun {s s'} id b h hr => by
    refine ⟨remove_nReq hr, fun i k hk => ?_⟩
    have hr' : remove s id = .ok (b, s') := hr
    cases hl : s.base.lookup id with
    | none => rw [remove_miss hl] at hr'; cases hr'; exact hk
    | some o =>
      obtain ⟨s'', h1, _, _, h4⟩ := remove_hit h hl
      rw [h1] at hr'; cases hr'
      rw [h4] at hk
      split at hk
      · cases hk
      · exact hk

theorem mem_keyOf {s : State} {x : ObjId × Nat} (h : Inv cs md s) (hx : x ∈ s.base.cached) : ∃ k, keyOf s x.1 = some k := by
  have : x.1 ∈ s.base.tbl.map (·.id) := by rw [← map_id_eq]; exact List.mem_map_of_mem hx
  obtain ⟨o, ho⟩ := mem_ids_iff_exists.1 this
  obtain ⟨n, h1, _⟩ := h.nodeOf ho
  exact ⟨s.pq.pri n, by simp [keyOf, ho, h1]⟩

/-- The object evicted is one whose latest request has the largest priority. -/
theorem evictsTop (cs md : Nat) (key : Req → Int) (ins : State → Req → Res State) (ok : Req → Prop) (hok : ∀ r, ok r → SizeOk md r)
    (hins : ∀ s r, ok r → ins s r = insert key s r) (adm : Adm) :
    EvictsTop (algoWith key ins) (fun s => s.base.cached) key (init cs md adm) (Calls {} ok) := by
  have S := spec cs md key ins ok hok hins
  have C := S.strong core (fun _ _ _ => rfl)
  have T := tagged cs md key ins ok hok hins
  intro ops out s ho h hne r
  have hi := C.reach (inv_init cs md adm) ho h
  have hh := T.reach S C (inv_init cs md adm) rfl rfl ops out s ho h
  obtain ⟨s', o, k, h1, h2, h3, h4, h5, h6, h7, h8, h9⟩ := evict_spec hi (by intro e; simp [Base.cached, e] at hne)
  obtain ⟨_, rv, l1, l2⟩ := (histTag_latest (f := fun _ r => key r) _ _).2 _ ((hh _).2 _ h7)
  replace l1 : latest (ops.zip out) o.id = some rv := by rw [← latestAt_latest, l1]; rfl
  refine ⟨(o.id, o.size), s', rv, h1, h3, l1, ?_⟩
  intro x hx
  obtain ⟨kx, e⟩ := mem_keyOf hi hx
  obtain ⟨_, rx, m1, m2⟩ := (histTag_latest (f := fun _ r => key r) _ _).2 _ ((hh _).2 _ e)
  replace m1 : latest (ops.zip out) x.1 = some rx := by rw [← latestAt_latest, m1]; rfl
  refine ⟨rx, m1, ?_⟩
  rw [m2, l2]
  exact h8 _ _ e

end PQCache
end Verif
