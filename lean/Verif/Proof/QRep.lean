import Verif.Proof.Queue
/-!
# A queue state as the list of its objects

`Rep cs md s l`: the cache `s` holds exactly the objects `l`, in queue order, with exact counters.  Unlike `QInv` this
does not bound the occupied bytes: queues inside composite algorithms may exceed their own size.
-/

namespace Verif
open Spec
variable {μ : Type}

/-- ids and sizes -/
def cont (l : List (Obj μ)) : Contents := l.map (fun o => (o.id, o.size))

@[simp] theorem cont_nil : cont ([] : List (Obj μ)) = [] := rfl
@[simp] theorem cont_cons (o : Obj μ) (l : List (Obj μ)) : cont (o :: l) = (o.id, o.size) :: cont l := rfl
@[simp] theorem cont_append (l l' : List (Obj μ)) : cont (l ++ l') = cont l ++ cont l' := by simp [cont]
@[simp] theorem cont_length (l : List (Obj μ)) : (cont l).length = l.length := by simp [cont]
theorem cont_ids (l : List (Obj μ)) : (cont l).ids = l.map (·.id) := by simp [cont, Contents.ids, Function.comp_def]

/-- The objects of a queue state in queue order, head first. -/
def QState.objs (s : QState μ) : List (Obj μ) := s.q.filterMap s.base.lookup

structure Rep (cs md : Nat) (s : QState μ) (l : List (Obj μ)) : Prop where
  csz : s.base.cacheSize = cs
  mdz : s.base.objMd = md
  q : s.q = l.map (·.id)
  perm : s.base.tbl.Perm l
  nodup : (l.map (·.id)).Nodup
  occ : s.base.occ = (charge md (cont l) : Nat)
  nObj : s.base.nObj = (l.length : Nat)
  small : ∀ o ∈ l, o.size + md < u32

/-- write to the object `id` in a list -/
def modL (id : ObjId) (f : Obj μ → Obj μ) (l : List (Obj μ)) : List (Obj μ) := l.map (fun o => if o.id = id then f o else o)

/-- drop the object `id` from a list -/
def delL (id : ObjId) (l : List (Obj μ)) : List (Obj μ) := l.filter (fun o => o.id ≠ id)

theorem modL_cont (id : ObjId) (f : Obj μ → Obj μ) (hid : ∀ o, (f o).id = o.id) (hsz : ∀ o, (f o).size = o.size)
    (l : List (Obj μ)) : cont (modL id f l) = cont l := by
  simp only [cont, modL, List.map_map]
  apply List.map_congr_left
  intro o _
  simp only [Function.comp]
  split <;> simp [hid, hsz]

theorem modL_ids (id : ObjId) (f : Obj μ → Obj μ) (hid : ∀ o, (f o).id = o.id) (l : List (Obj μ)) :
    (modL id f l).map (·.id) = l.map (·.id) := by
  simp only [modL, List.map_map]
  apply List.map_congr_left
  intro o _
  simp only [Function.comp]
  split <;> simp [hid]

theorem delL_cont (id : ObjId) (l : List (Obj μ)) : cont (delL id l) = (cont l).filter (fun x => x.1 ≠ id) := by
  simp only [cont, delL, List.filter_map]; rfl

theorem delL_ids (id : ObjId) (l : List (Obj μ)) : (delL id l).map (·.id) = (l.map (·.id)).filter (fun x => x ≠ id) := by
  simp only [delL, List.filter_map]; rfl

theorem eraseP_eq_delL {id : ObjId} {l : List (Obj μ)} (hn : (l.map (·.id)).Nodup) :
    l.eraseP (fun o => o.id == id) = delL id l := by
  induction l with
  | nil => rfl
  | cons a l ih =>
    simp only [List.map_cons, List.nodup_cons, List.mem_map, not_exists, not_and] at hn
    by_cases h : a.id = id
    · rw [List.eraseP_cons_of_pos (by simpa using h), delL, List.filter_cons_of_neg (by simpa using h)]
      symm
      rw [List.filter_eq_self]
      intro o ho
      simp only [ne_eq, decide_not, Bool.not_eq_eq_eq_not, Bool.not_true, decide_eq_false_iff_not]
      intro e
      exact hn.1 o ho (e.trans h.symm)
    · rw [List.eraseP_cons_of_neg (by simpa using h), delL, List.filter_cons_of_pos (by simpa using h)]
      rw [ih hn.2]; rfl

theorem delL_last {o : Obj μ} {l : List (Obj μ)} (hn : ((l ++ [o]).map (·.id)).Nodup) : delL o.id (l ++ [o]) = l := by
  rw [List.map_append, List.nodup_append] at hn
  rw [delL, List.filter_append, List.filter_cons_of_neg (by simp), List.filter_nil, List.append_nil, List.filter_eq_self]
  intro x hx
  have := hn.2.2 x.id (List.mem_map_of_mem hx) o.id (by simp)
  simpa using this

theorem find_unique {l : List (Obj μ)} (hn : (l.map (·.id)).Nodup) {o : Obj μ} (ho : o ∈ l) :
    l.find? (fun x => x.id == o.id) = some o :=
  lookup_of_mem (b := ({ cacheSize := 0, objMd := 0, tbl := l } : Base μ)) hn ho

namespace Rep
variable {cs md : Nat} {s : QState μ} {l : List (Obj μ)}

theorem tblNodup (h : Rep cs md s l) : (s.base.tbl.map (·.id)).Nodup := (h.perm.map _).nodup_iff.2 h.nodup

theorem lookup_mem (h : Rep cs md s l) {o : Obj μ} (ho : o ∈ l) : s.base.lookup o.id = some o :=
  lookup_of_mem h.tblNodup (h.perm.symm.subset ho)

theorem mem_lookup (h : Rep cs md s l) {id : ObjId} {o : Obj μ} (ho : s.base.lookup id = some o) : o ∈ l ∧ o.id = id :=
  ⟨h.perm.subset (lookup_some_mem ho).1, (lookup_some_mem ho).2⟩

theorem lookup_none (h : Rep cs md s l) {id : ObjId} : s.base.lookup id = none ↔ id ∉ l.map (·.id) := by
  rw [lookup_none_iff', map_id_eq, (h.perm.map _).mem_iff]

theorem lookup_isSome (h : Rep cs md s l) (id : ObjId) : (s.base.lookup id).isSome = decide (id ∈ l.map (·.id)) := by
  cases hl : s.base.lookup id with
  | none => have := h.lookup_none.1 hl; simp only [Option.isSome_none]; exact (decide_eq_false this).symm
  | some o =>
    obtain ⟨h1, h2⟩ := h.mem_lookup hl
    have : id ∈ l.map (·.id) := List.mem_map.2 ⟨o, h1, h2⟩
    simp only [Option.isSome_some]; exact (decide_eq_true this).symm

theorem lookup_some (h : Rep cs md s l) {id : ObjId} (hm : id ∈ l.map (·.id)) :
    ∃ o, s.base.lookup id = some o ∧ o ∈ l ∧ o.id = id := by
  obtain ⟨o, ho, rfl⟩ := List.mem_map.1 hm
  exact ⟨o, h.lookup_mem ho, ho, rfl⟩

theorem objs (h : Rep cs md s l) : s.objs = l := by
  unfold QState.objs
  rw [h.q, List.filterMap_map]
  have : ∀ l' : List (Obj μ), (∀ o ∈ l', o ∈ l) → l'.filterMap (s.base.lookup ∘ fun x => x.id) = l' := by
    intro l'
    induction l' with
    | nil => intro _; rfl
    | cons a l' ih =>
      intro hh
      rw [List.filterMap_cons]
      simp only [Function.comp, h.lookup_mem (hh a (by simp))]
      exact congrArg _ (ih (fun o ho => hh o (by simp [ho])))
  exact this l (fun _ h => h)

theorem cached (h : Rep cs md s l) : s.base.cached.Perm (cont l) := h.perm.map _

theorem init (cs md : Nat) (adm : Adm) : Rep cs md (QState.init cs md adm : QState μ) [] := by
  refine ⟨rfl, rfl, rfl, List.Perm.refl _, List.nodup_nil, rfl, rfl, by simp⟩

theorem of_QInv (h : QInv cs md s) : Rep cs md s s.objs := by
  have hex : ∀ id ∈ s.q, ∃ o, s.base.lookup id = some o := fun id hid => (h.mem_iff id).1 hid
  have hq : s.q = s.objs.map (·.id) := by
    unfold QState.objs
    have : ∀ q : List ObjId, (∀ id ∈ q, ∃ o, s.base.lookup id = some o) → q = (q.filterMap s.base.lookup).map (·.id) := by
      intro q
      induction q with
      | nil => intro _; rfl
      | cons a q ih =>
        intro hh
        obtain ⟨o, ho⟩ := hh a (by simp)
        rw [List.filterMap_cons]
        simp only [ho, List.map_cons, (lookup_some_mem ho).2]
        exact congrArg _ (ih (fun i hi => hh i (by simp [hi])))
    exact this s.q hex
  have hp : s.base.tbl.Perm s.objs := by
    have h1 : (s.base.tbl.map (·.id)).filterMap s.base.lookup = s.base.tbl := by
      rw [List.filterMap_map]
      have : ∀ l' : List (Obj μ), (∀ o ∈ l', o ∈ s.base.tbl) → l'.filterMap (s.base.lookup ∘ fun x => x.id) = l' := by
        intro l'
        induction l' with
        | nil => intro _; rfl
        | cons a l' ih =>
          intro hh
          rw [List.filterMap_cons]
          simp only [Function.comp, lookup_of_mem h.base.inv.nodup (hh a (by simp))]
          exact congrArg _ (ih (fun o ho => hh o (by simp [ho])))
      exact this _ (fun _ h => h)
    have := (h.q.filterMap s.base.lookup).symm
    rw [h1] at this
    exact this
  refine ⟨h.base.cs, h.base.md, hq, hp, (hp.map _).nodup_iff.1 h.base.inv.nodup, ?_, ?_, ?_⟩
  · rw [h.base.inv.occ_eq, h.base.md, charge_perm (show s.base.cached.Perm (cont s.objs) from hp.map _)]
  · rw [h.base.inv.nObj_eq, hp.length_eq]
  · intro o ho
    have := h.base.inv.small o (hp.symm.subset ho)
    rw [h.base.md] at this; exact this

theorem to_QInv (h : Rep cs md s l) (hc : charge md (cont l) ≤ cs) : QInv cs md s := by
  refine ⟨⟨⟨h.tblNodup, ?_, ?_, ?_, ?_⟩, h.csz, h.mdz⟩, ?_⟩
  · rw [h.occ, h.mdz, charge_perm h.cached]
  · rw [h.nObj, h.perm.length_eq]
  · rw [h.occ, h.csz]; omega
  · intro o ho; rw [h.mdz]; exact h.small o (h.perm.subset ho)
  · rw [h.q]; exact (h.perm.map _).symm

theorem frame (h : Rep cs md s l) (n : Nat) (a : Adm) :
    Rep cs md ({ s with base := { s.base with nReq := n, adm := a } } : QState μ) l :=
  ⟨h.csz, h.mdz, h.q, h.perm, h.nodup, h.occ, h.nObj, h.small⟩

theorem modify (h : Rep cs md s l) (id : ObjId) (f : Obj μ → Obj μ) (hid : ∀ o, (f o).id = o.id)
    (hsz : ∀ o, (f o).size = o.size) : Rep cs md (s.modify id f) (modL id f l) := by
  refine ⟨h.csz, h.mdz, ?_, h.perm.map _, ?_, ?_, ?_, ?_⟩
  · rw [modL_ids _ _ hid]; exact h.q
  · rw [modL_ids _ _ hid]; exact h.nodup
  · rw [modL_cont _ _ hid hsz]; exact h.occ
  · simp only [modL, List.length_map]; exact h.nObj
  · intro o ho
    simp only [modL, List.mem_map] at ho
    obtain ⟨o', ho', rfl⟩ := ho
    have := h.small o' ho'
    split <;> simp [hsz, this]

theorem findFIFO_miss (h : Rep cs md s l) {r : Req} {u : Bool} (hn : r.id ∉ l.map (·.id)) :
    s.findFIFO r u = (none, s) := by
  simp [QState.findFIFO, findBase_miss (h.lookup_none.2 hn)]

theorem findFIFO_false (h : Rep cs md s l) (r : Req) :
    (s.findFIFO r false).1.isSome = decide (r.id ∈ l.map (·.id)) ∧ (s.findFIFO r false).2 = s := by
  simp only [QState.findFIFO, findBase_false]
  exact ⟨h.lookup_isSome r.id, trivial⟩

theorem findFIFO_hit (h : Rep cs md s l) {r : Req} (hm : r.id ∈ l.map (·.id)) :
    ∃ o, o ∈ l ∧ o.id = r.id ∧ s.findFIFO r true = (some (touch r o), s.modify r.id (touch r)) := by
  obtain ⟨o, h1, h2, h3⟩ := h.lookup_some hm
  exact ⟨o, h2, h3, by simp [QState.findFIFO, findBase_hit h1, QState.modify]⟩

theorem insert (h : Rep cs md s l) (z : μ) (r : Req) (hn : r.id ∉ l.map (·.id)) (hsz : SizeOk md r) :
    ∃ s', QState.insert z s r = .ok s' ∧ Rep cs md s' (Obj.ofReq z r :: l) := by
  have hq : r.id ∉ s.q := by rw [h.q]; exact hn
  refine ⟨{ base := s.base.insertBase z r, q := r.id :: s.q }, by simp [QState.insert, qPrepend, hq],
    h.csz, h.mdz, ?_, ?_, ?_, ?_, ?_, ?_⟩
  · simp [h.q, Obj.ofReq]
  · exact h.perm.cons _
  · simp only [List.map_cons, List.nodup_cons]; exact ⟨hn, h.nodup⟩
  · have := h.occ
    have hmd := h.mdz
    simp only [Base.insertBase, cont_cons, charge, Obj.ofReq]
    rw [this, hmd]
    generalize r.size % u32 = n
    omega
  · have := h.nObj
    simp only [Base.insertBase, List.length_cons]; rw [this]; push_cast; omega
  · intro o ho
    rcases List.mem_cons.1 ho with rfl | ho
    · exact hsz
    · exact h.small o ho

theorem remove_miss (h : Rep cs md s l) {id : ObjId} (hn : id ∉ l.map (·.id)) : QState.remove s id = .ok (false, s) :=
  QInv.remove_miss (h.lookup_none.2 hn)

theorem charge_del {id : ObjId} {o : Obj μ} {l : List (Obj μ)} (hn : (l.map (·.id)).Nodup) (ho : o ∈ l) (hid : o.id = id) :
    l.Perm (o :: delL id l) := by
  rw [← eraseP_eq_delL hn]; exact eraseP_split hn ho hid

theorem remove_hit (h : Rep cs md s l) {id : ObjId} (hm : id ∈ l.map (·.id)) :
    ∃ s', QState.remove s id = .ok (true, s') ∧ Rep cs md s' (delL id l) := by
  obtain ⟨o, h1, h2, h3⟩ := h.lookup_some hm
  have hq : id ∈ s.q := by rw [h.q]; exact hm
  have hp := charge_del h.nodup h2 h3
  have hsm : (o.size + s.base.objMd) % u32 = o.size + md := by rw [h.mdz]; exact Nat.mod_eq_of_lt (h.small o h2)
  refine ⟨{ base := ({ s.base with occ := s.base.occ - ((o.size + s.base.objMd) % u32 : Nat), nObj := s.base.nObj - 1 } : Base μ).del id, q := s.q.erase id },
    by simp [QState.remove, h1, qRemove, hq, Base.removeObjBase], h.csz, h.mdz, ?_, ?_, ?_, ?_, ?_, ?_⟩
  · simp only [h.q]
    rw [erase_eq_filter h.nodup, delL_ids]
  · simp only [Base.del]
    rw [eraseP_eq_delL h.tblNodup]
    exact h.perm.filter _
  · exact (h.nodup.sublist (List.Sublist.map _ List.filter_sublist))
  · have e := charge_perm (md := md) (hp.map (fun o => (o.id, o.size)))
    simp only [Base.del, hsm, h.occ]
    simp only [List.map_cons, charge] at e
    have e' : charge md (cont l) = o.size + md + charge md (cont (delL id l)) := e
    rw [e']; push_cast; omega
  · have := hp.length_eq
    simp only [List.length_cons] at this
    simp only [Base.del, h.nObj]; omega
  · intro o' ho'; exact h.small o' (List.mem_of_mem_filter ho')

theorem tailObj (h : Rep cs md s l) {l' : List (Obj μ)} {o : Obj μ} (e : l = l' ++ [o]) : s.tailObj = .ok o := by
  have hq : s.q = l'.map (·.id) ++ [o.id] := by rw [h.q, e]; simp
  have := h.lookup_mem (o := o) (by simp [e])
  simp [QState.tailObj, qTail, hq, this]

theorem evictTail (h : Rep cs md s l) {l' : List (Obj μ)} {o : Obj μ} (e : l = l' ++ [o]) :
    ∃ s', QState.evictTail s = .ok s' ∧ Rep cs md s' l' := by
  have hm : o.id ∈ l.map (·.id) := by rw [e]; simp
  obtain ⟨s', h1, h2⟩ := h.remove_hit hm
  have hq : s.q = l'.map (·.id) ++ [o.id] := by rw [h.q, e]; simp
  have hl := h.lookup_mem (o := o) (by simp [e])
  subst e
  rw [delL_last h.nodup] at h2
  refine ⟨s', ?_, h2⟩
  have hq' : o.id ∈ s.q := by rw [hq]; simp
  have hnot : o.id ∉ l'.map (·.id) := by
    have := h.nodup
    rw [List.map_append, List.nodup_append] at this
    intro hx
    exact this.2.2 o.id hx o.id (by simp) rfl
  simp only [QState.remove, hl, qRemove, hq', if_true, Res.bind_ok] at h1
  cases hb : s.base.removeObjBase o.id with
  | error e => simp [hb] at h1
  | ok b' =>
    simp only [hb, Res.bind_ok] at h1
    cases h1
    simp only [QState.evictTail, qTail, hq, List.getLast?_append, List.getLast?_singleton, Option.some_or, Res.bind_ok,
      Base.evictBase, hb, qDropTail, List.dropLast_concat]
    rw [List.erase_append_right _ hnot]
    simp

theorem toHead (h : Rep cs md s l) {id : ObjId} {o : Obj μ} (ho : o ∈ l) (hid : o.id = id) :
    ∃ q', qMoveToHead s.q id = .ok q' ∧ Rep cs md ({ s with q := q' } : QState μ) (o :: delL id l) := by
  have hm : id ∈ s.q := by rw [h.q]; exact List.mem_map.2 ⟨o, ho, hid⟩
  have hp := charge_del h.nodup ho hid
  refine ⟨id :: s.q.erase id, by simp [qMoveToHead, hm], h.csz, h.mdz, ?_, h.perm.trans hp, (hp.map _).nodup_iff.1 h.nodup,
    ?_, ?_, ?_⟩
  · simp only [h.q, List.map_cons, hid]
    rw [erase_eq_filter h.nodup, delL_ids]
  · rw [h.occ]; exact congrArg _ (charge_perm (hp.map _))
  · rw [h.nObj, hp.length_eq]
  · intro x hx; exact h.small x (hp.symm.subset hx)

end Rep

/-- A list with positive charge has a last element. -/
theorem exists_last_of_charge {md : Nat} {l : List (Obj μ)} (h : 0 < charge md (cont l)) : ∃ l' o, l = l' ++ [o] := by
  rcases List.eq_nil_or_concat l with rfl | ⟨l', o, rfl⟩
  · simp [charge] at h
  · exact ⟨l', o, by simp⟩

end Verif
