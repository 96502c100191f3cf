import Verif.Spec.Cache
import Mathlib.Data.List.Perm.Subperm
import Mathlib.Data.List.Nodup
/-!
# Helper lemmas about `Base`: the invariant of table and counters
-/

namespace Verif

variable {μ : Type}

/-- ids and sizes of the objects in the table: what the cache holds. -/
def Base.cached (b : Base μ) : Spec.Contents := b.tbl.map (fun o => (o.id, o.size))

/-- Bytes charged for a list of cached objects. -/
def charge (md : Nat) : List (ObjId × Nat) → Nat
  | [] => 0
  | x :: xs => (x.2 + md) + charge md xs

theorem charge_append (md : Nat) (l l' : List (ObjId × Nat)) :
    charge md (l ++ l') = charge md l + charge md l' := by
  induction l with
  | nil => simp [charge]
  | cons a l ih => simp only [List.cons_append, charge, ih]; omega

theorem charge_perm {md : Nat} {l l' : List (ObjId × Nat)} (h : l.Perm l') :
    charge md l = charge md l' := by
  induction h with
  | nil => rfl
  | cons a _ ih => simp only [charge, ih]
  | swap a b l => simp only [charge]; omega
  | trans _ _ ih1 ih2 => rw [ih1, ih2]

theorem charge_sublist {md : Nat} {l l' : List (ObjId × Nat)} (h : l.Sublist l') :
    charge md l ≤ charge md l' := by
  induction h with
  | slnil => simp
  | cons a _ ih => simp only [charge]; omega
  | cons_cons a _ ih => simp only [charge]; omega

theorem charge_subperm {md : Nat} {l l' : List (ObjId × Nat)} (h : l.Subperm l') :
    charge md l ≤ charge md l' := by
  obtain ⟨m, hp, hs⟩ := h
  rw [← charge_perm hp]; exact charge_sublist hs

/-- Invariant of the shared part of a cache: ids are unique, counters are exact, capacity holds, and the 32-bit
sum in `cache_remove_obj_base` does not wrap for any cached object. -/
structure BaseInv (b : Base μ) : Prop where
  nodup : (b.tbl.map (·.id)).Nodup
  occ_eq : b.occ = (charge b.objMd b.cached : Nat)
  nObj_eq : b.nObj = (b.tbl.length : Nat)
  cap : b.occ ≤ (b.cacheSize : Int)
  small : ∀ o ∈ b.tbl, o.size + b.objMd < u32

theorem baseInv_init (c md : Nat) (adm : Adm) : BaseInv (Base.init c md adm : Base μ) := by
  refine ⟨?_, ?_, ?_, ?_, ?_⟩ <;> simp [Base.init, Base.cached, charge]

section lookup
variable {b : Base μ} {id : ObjId}

theorem lookup_none_iff : b.lookup id = none ↔ ∀ o ∈ b.tbl, o.id ≠ id := by
  simp [Base.lookup]

theorem lookup_none_iff' : b.lookup id = none ↔ id ∉ b.cached.map Prod.fst := by
  rw [lookup_none_iff]
  simp only [Base.cached, List.map_map, List.mem_map, Function.comp]
  grind

theorem lookup_some_mem {o : Obj μ} (h : b.lookup id = some o) : o ∈ b.tbl ∧ o.id = id := by
  unfold Base.lookup at h
  refine ⟨List.mem_of_find?_eq_some h, ?_⟩
  have := List.find?_some h
  simpa using this

theorem lookup_isSome_iff : (b.lookup id).isSome = decide (id ∈ b.cached.map Prod.fst) := by
  cases h : b.lookup id with
  | none => rw [lookup_none_iff'] at h; simp [h]
  | some o =>
    have : b.lookup id ≠ none := by simp [h]
    rw [Ne, lookup_none_iff', not_not] at this
    simp only [Option.isSome_some, this, decide_true]

theorem map_id_eq : b.cached.map Prod.fst = b.tbl.map (·.id) := by
  simp [Base.cached, List.map_map, Function.comp_def]

theorem lookup_of_mem (hn : (b.tbl.map (·.id)).Nodup) {o : Obj μ} (ho : o ∈ b.tbl) :
    b.lookup o.id = some o := by
  unfold Base.lookup
  generalize b.tbl = l at *
  induction l with
  | nil => simp at ho
  | cons a l ih =>
    simp only [List.map_cons, List.nodup_cons, List.mem_map, not_exists, not_and] at hn
    rw [List.find?_cons]
    rcases List.mem_cons.1 ho with rfl | ho
    · simp
    · have : a.id ≠ o.id := fun e => hn.1 o ho e.symm
      simp only [show (a.id == o.id) = false from by simpa using this]
      exact ih hn.2 ho

theorem mem_ids_iff_exists : id ∈ b.tbl.map (·.id) ↔ ∃ o, b.lookup id = some o := by
  rw [← Option.isSome_iff_exists, lookup_isSome_iff, map_id_eq]; simp

end lookup

section eraseP

theorem eraseP_split {l : List (Obj μ)} {id : ObjId} (hn : (l.map (·.id)).Nodup) {o : Obj μ}
    (ho : o ∈ l) (hid : o.id = id) :
    l.Perm (o :: l.eraseP (fun o => o.id == id)) := by
  subst hid
  induction l with
  | nil => simp at ho
  | cons a l ih =>
    simp only [List.map_cons, List.nodup_cons, List.mem_map, not_exists, not_and] at hn
    rcases List.mem_cons.1 ho with rfl | ho
    · simp
    · have hne : a.id ≠ o.id := fun e => hn.1 o ho e.symm
      rw [List.eraseP_cons_of_neg (by simpa using hne)]
      exact ((ih hn.2 ho).cons a).trans (List.Perm.swap _ _ _)

theorem map_id_eraseP (l : List (Obj μ)) (id : ObjId) :
    (l.eraseP (fun o => o.id == id)).map (·.id) = (l.map (·.id)).erase id := by
  induction l with
  | nil => simp
  | cons a l ih =>
    by_cases h : a.id = id
    · simp [h]
    · rw [List.eraseP_cons_of_neg (by simpa using h), List.map_cons, List.map_cons,
        List.erase_cons_tail (by simpa using h), ih]

end eraseP

/-! ### The base functions preserve the invariant -/

theorem Base.cached_modify (b : Base μ) (id : ObjId) (f : Obj μ → Obj μ)
    (hid : ∀ o, (f o).id = o.id) (hsz : ∀ o, (f o).size = o.size) :
    (b.modify id f).cached = b.cached := by
  simp only [Base.cached, Base.modify, List.map_map]
  apply List.map_congr_left
  intro o _
  simp only [Function.comp]
  split <;> simp [hid, hsz]

theorem Base.ids_modify (b : Base μ) (id : ObjId) (f : Obj μ → Obj μ)
    (hid : ∀ o, (f o).id = o.id) :
    (b.modify id f).tbl.map (·.id) = b.tbl.map (·.id) := by
  simp only [Base.modify, List.map_map]
  apply List.map_congr_left
  intro o _
  simp only [Function.comp]
  split <;> simp [hid]

theorem BaseInv.modify {b : Base μ} (h : BaseInv b) (id : ObjId) (f : Obj μ → Obj μ)
    (hid : ∀ o, (f o).id = o.id) (hsz : ∀ o, (f o).size = o.size) : BaseInv (b.modify id f) := by
  refine ⟨?_, ?_, ?_, ?_, ?_⟩
  · rw [Base.ids_modify _ _ _ hid]; exact h.nodup
  · rw [Base.cached_modify _ _ _ hid hsz]; exact h.occ_eq
  · have := h.nObj_eq; simpa [Base.modify] using this
  · exact h.cap
  · intro o ho
    simp only [Base.modify, List.mem_map] at ho
    obtain ⟨o', ho', rfl⟩ := ho
    have := h.small o' ho'
    simp only [Base.modify]
    split <;> simp [hsz, this]

theorem lookup_modify_self {b : Base μ} {id : ObjId} {f : Obj μ → Obj μ} {o : Obj μ}
    (hid : ∀ o, (f o).id = o.id) (h : b.lookup id = some o) :
    (b.modify id f).lookup id = some (f o) := by
  unfold Base.lookup Base.modify at *
  simp only
  generalize b.tbl = l at *
  induction l with
  | nil => simp at h
  | cons a l ih =>
    simp only [List.map_cons, List.find?_cons] at h ⊢
    by_cases ha : a.id = id
    · have : (a.id == id) = true := by simpa using ha
      simp only [this] at h
      simp only [ha, if_true, hid, beq_self_eq_true]
      simp_all
    · have : (a.id == id) = false := by simpa using ha
      simp only [this] at h
      simp only [ha, if_false, this]
      exact ih h

theorem lookup_modify_ne {b : Base μ} {id id' : ObjId} {f : Obj μ → Obj μ}
    (hid : ∀ o, (f o).id = o.id) (hne : id' ≠ id) :
    (b.modify id f).lookup id' = b.lookup id' := by
  unfold Base.lookup Base.modify
  simp only
  generalize b.tbl = l
  induction l with
  | nil => rfl
  | cons a l ih =>
    simp only [List.map_cons, List.find?_cons]
    by_cases ha : a.id = id
    · have h1 : (a.id == id') = false := by simp [ha]; exact fun e => hne e.symm
      simp only [ha, if_true, hid]
      rw [ha] at h1; simp only [h1]; exact ih
    · simp only [ha, if_false]; rw [ih]

/-- The update `cache_find_base` applies to a hit object. -/
def touch (r : Req) (o : Obj μ) : Obj μ := { o with miscNext := r.next, miscFreq := o.miscFreq + 1 }

theorem findBase_miss {b : Base μ} {r : Req} {u : Bool} (h : b.lookup r.id = none) :
    b.findBase r u = (none, b) := by
  simp [Base.findBase, h]

theorem findBase_hit {b : Base μ} {r : Req} {o : Obj μ} (h : b.lookup r.id = some o) :
    b.findBase r true = (some (touch r o), b.modify r.id (touch r)) := by
  simp only [Base.findBase, h, if_true]
  congr 1
  exact lookup_modify_self (f := touch r) (fun _ => rfl) h

theorem findBase_false {b : Base μ} {r : Req} : b.findBase r false = (b.lookup r.id, b) := by
  unfold Base.findBase
  cases h : b.lookup r.id <;> simp [h]

theorem BaseInv.insert {b : Base μ} (h : BaseInv b) (z : μ) (r : Req)
    (hnew : r.id ∉ b.cached.map Prod.fst) (hroom : b.occ + r.size + b.objMd ≤ b.cacheSize)
    (hsm : r.size % u32 + b.objMd < u32) : BaseInv (b.insertBase z r) := by
  have hle : r.size % u32 ≤ r.size := Nat.mod_le _ _
  refine ⟨?_, ?_, ?_, ?_, ?_⟩
  · rw [map_id_eq] at hnew
    simp only [Base.insertBase, Obj.ofReq, List.map_cons, List.nodup_cons]
    exact ⟨hnew, h.nodup⟩
  · have := h.occ_eq
    simp only [Base.insertBase, Obj.ofReq, Base.cached, List.map_cons, charge] at this ⊢
    omega
  · have := h.nObj_eq
    simp only [Base.insertBase, List.length_cons] at this ⊢; omega
  · simp only [Base.insertBase, Obj.ofReq]; omega
  · intro o ho
    simp only [Base.insertBase, List.mem_cons] at ho
    rcases ho with rfl | ho
    · exact hsm
    · exact h.small o ho

theorem cached_insertBase (b : Base μ) (z : μ) (r : Req) :
    (b.insertBase z r).cached = (r.id, r.size % u32) :: b.cached := by
  simp [Base.insertBase, Base.cached, Obj.ofReq]

/-- Removing a cached object succeeds, keeps the invariant and removes exactly that object. -/
theorem BaseInv.remove {b : Base μ} (h : BaseInv b) {id : ObjId} {o : Obj μ}
    (ho : b.lookup id = some o) :
    ∃ b', b.removeObjBase id = .ok b' ∧ BaseInv b' ∧ b'.tbl = b.tbl.eraseP (fun o => o.id == id) ∧
      b.tbl.Perm (o :: b'.tbl) ∧ b'.cacheSize = b.cacheSize ∧ b'.objMd = b.objMd ∧
      b'.nReq = b.nReq ∧ b'.adm = b.adm := by
  obtain ⟨hmem, hid⟩ := lookup_some_mem ho
  have hp := eraseP_split h.nodup hmem hid
  have hsmall := h.small o hmem
  refine ⟨({ b with nObj := b.nObj - 1, occ := b.occ - ((o.size + b.objMd) % u32 : Nat) } : Base μ).del id,
    by simp only [Base.removeObjBase, ho], ?_, rfl, hp, rfl, rfl, rfl, rfl⟩
  have hc : charge b.objMd b.cached =
      (o.size + b.objMd) + charge b.objMd ((b.tbl.eraseP (fun o => o.id == id)).map (fun o => (o.id, o.size))) := by
    have := charge_perm (md := b.objMd) (hp.map (fun o => (o.id, o.size)))
    simpa [charge, Base.cached] using this
  have hmod : (o.size + b.objMd) % u32 = o.size + b.objMd := Nat.mod_eq_of_lt hsmall
  refine ⟨?_, ?_, ?_, ?_, ?_⟩
  · simp only [Base.del]
    rw [map_id_eraseP]
    exact h.nodup.erase _
  · have := h.occ_eq
    simp only [Base.del, Base.cached]
    rw [hmod]
    rw [hc] at this
    push_cast at this ⊢
    omega
  · have h1 := h.nObj_eq
    have h2 := hp.length_eq
    simp only [List.length_cons] at h2
    simp only [Base.del]; omega
  · have := h.cap
    simp only [Base.del]; omega
  · intro o' ho'
    exact h.small o' (List.mem_of_mem_eraseP ho')

end Verif
