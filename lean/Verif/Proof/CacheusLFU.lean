import Verif.Proof.LFU
import Verif.Proof.QRep
import Verif.Algo.Cacheus
import Verif.Spec.Cacheus
/-!
# The CR_LFU of Cacheus: frequency classes in the order of the last touch
-/

namespace Verif.Cacheus
open Verif Spec
open Verif.LFU (Node setNode)
open Verif.Spec.Cacheus (note)

/-- the objects with count `k`, the one touched most recently last -/
def cls (order : List ObjId) (cnt : ObjId → Nat) (k : Nat) : List ObjId := (order.filter (fun i => cnt i = k)).reverse

theorem mem_cls {order : List ObjId} {cnt : ObjId → Nat} {k : Nat} {i : ObjId} : i ∈ cls order cnt k ↔ i ∈ order ∧ cnt i = k := by
  simp [cls]

theorem cls_nodup {order : List ObjId} {cnt : ObjId → Nat} {k : Nat} (h : order.Nodup) : (cls order cnt k).Nodup := by
  unfold cls
  rw [List.nodup_reverse]
  exact h.filter _

theorem cls_congr {order : List ObjId} {cnt cnt' : ObjId → Nat} {k : Nat} (h : ∀ i ∈ order, cnt i = cnt' i) : cls order cnt k = cls order cnt' k := by
  unfold cls
  congr 1
  apply List.filter_congr
  intro i hi
  rw [h i hi]

theorem note_same (f : ObjId → Nat) (id : ObjId) (n : Nat) : note f id n id = n := by simp [note]
theorem note_ne {f : ObjId → Nat} {id i : ObjId} {n : Nat} (h : i ≠ id) : note f id n i = f i := by simp [note, h]

theorem cls_front {order : List ObjId} {cnt : ObjId → Nat} {id : ObjId} (hn : id ∉ order) (v k : Nat) :
    cls (id :: order) (note cnt id v) k = if k = v then cls order cnt k ++ [id] else cls order cnt k := by
  have hc : cls order (note cnt id v) k = cls order cnt k := cls_congr (fun i hi => note_ne (by rintro rfl; exact hn hi))
  by_cases h : k = v
  · subst h
    rw [if_pos rfl, ← hc]
    unfold cls
    rw [List.filter_cons_of_pos (by simp [note_same]), List.reverse_cons]
  · rw [if_neg h, ← hc]
    unfold cls
    rw [List.filter_cons_of_neg (by simp [note_same]; exact fun e => h e.symm)]

theorem cls_drop {order : List ObjId} {cnt : ObjId → Nat} (hn : order.Nodup) (id : ObjId) (k : Nat) :
    cls (order.filter (fun i => i ≠ id)) cnt k = (cls order cnt k).erase id := by
  rw [erase_eq_filter (cls_nodup hn)]
  unfold cls
  rw [List.filter_reverse, List.filter_filter, List.filter_filter]
  congr 1
  apply List.filter_congr
  intro i _
  rw [Bool.and_comm]

theorem cls_drop_ne {order : List ObjId} {cnt : ObjId → Nat} (hn : order.Nodup) {id : ObjId} {k : Nat} (h : k ≠ cnt id) :
    cls (order.filter (fun i => i ≠ id)) cnt k = cls order cnt k := by
  rw [cls_drop hn, List.erase_of_not_mem]
  intro hm
  exact h (mem_cls.1 hm).2.symm

/-- the nodes hold the classes -/
def Nodes (nodes : Nat → Option Node) (order : List ObjId) (cnt : ObjId → Nat) : Prop :=
  ∀ k, (nodes k).getD {} = ⟨((cls order cnt k).length : Nat), cls order cnt k⟩

theorem Nodes.some {nodes : Nat → Option Node} {order : List ObjId} {cnt : ObjId → Nat} (h : Nodes nodes order cnt) {id : ObjId} (hi : id ∈ order) :
    nodes (cnt id) = Option.some ⟨((cls order cnt (cnt id)).length : Nat), cls order cnt (cnt id)⟩ := by
  have h1 := h (cnt id)
  cases hn : nodes (cnt id) with
  | none =>
    rw [hn] at h1
    have h2 : ([] : List ObjId) = cls order cnt (cnt id) := congrArg Node.q h1
    have h3 : id ∈ cls order cnt (cnt id) := mem_cls.2 ⟨hi, rfl⟩
    rw [← h2] at h3
    cases h3
  | some nd => rw [hn] at h1; exact congrArg Option.some h1

theorem Nodes.set {nodes : Nat → Option Node} {order order' : List ObjId} {cnt cnt' : ObjId → Nat} (h : Nodes nodes order cnt) {k : Nat}
    (hk : ∀ j, j ≠ k → cls order' cnt' j = cls order cnt j) (n : Int) (hn : n = ((cls order' cnt' k).length : Nat)) :
    Nodes (setNode nodes k (Option.some ⟨n, cls order' cnt' k⟩)) order' cnt' := by
  intro j
  by_cases e : j = k
  · subst e; simp [setNode, hn]
  · simp only [setNode, if_neg e]; rw [h j, hk j e]

theorem take_ok {f : CRLFU} {order : List ObjId} {cnt : ObjId → Nat} (h : Nodes f.nodes order cnt) (hn : order.Nodup) {id : ObjId} (hi : id ∈ order) :
    ∃ nodes', f.take id (cnt id) = .ok { f with nodes := nodes' } ∧ Nodes nodes' (order.filter (fun i => i ≠ id)) cnt := by
  have hm : id ∈ cls order cnt (cnt id) := mem_cls.2 ⟨hi, rfl⟩
  refine ⟨_, by simp only [CRLFU.take, h.some hi, qRemove, if_pos hm, Res.bind_ok]; rfl, ?_⟩
  rw [← cls_drop hn]
  refine h.set (fun j hj => cls_drop_ne hn hj) _ ?_
  rw [cls_drop hn, List.length_erase_of_mem hm]
  have := List.length_pos_of_mem hm
  omega

theorem put_ok {f : CRLFU} {order : List ObjId} {cnt : ObjId → Nat} (h : Nodes f.nodes order cnt) {id : ObjId} (hi : id ∉ order) (k : Nat) :
    ∃ nodes', f.put id k = .ok { f with nodes := nodes' } ∧ Nodes nodes' (id :: order) (note cnt id k) := by
  have hm : id ∉ cls order cnt k := fun hm => hi (mem_cls.1 hm).1
  have e : cls (id :: order) (note cnt id k) k = cls order cnt k ++ [id] := by rw [cls_front hi, if_pos rfl]
  refine ⟨_, by simp only [CRLFU.put, h k, qAppend, if_neg hm, Res.bind_ok]; rfl, ?_⟩
  rw [← e]
  refine h.set (fun j hj => by rw [cls_front hi, if_neg hj]) _ ?_
  rw [e]; simp

theorem find?_congr' {α : Type} {p q : α → Bool} : ∀ {l : List α}, (∀ x ∈ l, p x = q x) → l.find? p = l.find? q := by
  intro l
  induction l with
  | nil => intro _; rfl
  | cons a l ih =>
    intro h
    rw [List.find?_cons, List.find?_cons, h a (by simp), ih (fun x hx => h x (by simp [hx]))]

/-- `m` is the smallest count -/
def IsMin (order : List ObjId) (cnt : ObjId → Nat) (m : Nat) : Prop := (∃ i ∈ order, cnt i = m) ∧ ∀ i ∈ order, m ≤ cnt i

theorem scan_spec {f : CRLFU} {order : List ObjId} {cnt : ObjId → Nat} (h : Nodes f.nodes order cnt) {m : Nat} (hmax : ∀ i ∈ order, cnt i ≤ f.maxFreq)
    (hm : ∀ i ∈ order, m < cnt i) : (∃ k, f.scan m = some k ∧ IsMin order cnt k) ∨ (f.scan m = none ∧ order = []) := by
  unfold CRLFU.scan
  have hpt : ∀ k, f.used k = true ↔ ∃ i ∈ order, cnt i = k := by
    intro k
    have h1 := h k
    unfold CRLFU.used
    cases hn : f.nodes k with
    | none =>
      rw [hn] at h1
      have h2 : ([] : List ObjId) = cls order cnt k := congrArg Node.q h1
      simp only [Bool.false_eq_true, false_iff]
      rintro ⟨i, hi, e⟩
      have h3 : i ∈ cls order cnt k := mem_cls.2 ⟨hi, e⟩
      rw [← h2] at h3
      cases h3
    | some nd =>
      rw [hn] at h1
      have h2 : nd.n = ((cls order cnt k).length : Nat) := congrArg Node.n h1
      simp only [h2, decide_eq_true_eq]
      constructor
      · intro hlt
        obtain ⟨i, hi⟩ := List.exists_mem_of_length_pos (l := cls order cnt k) (by omega)
        exact ⟨i, mem_cls.1 hi⟩
      · rintro ⟨i, hi, e⟩
        have := List.length_pos_of_mem (mem_cls.2 ⟨hi, e⟩)
        omega
  cases hf : (List.range' (m + 1) (f.maxFreq - m)).find? f.used with
  | none =>
    right
    refine ⟨rfl, ?_⟩
    rw [List.find?_eq_none] at hf
    rw [List.eq_nil_iff_forall_not_mem]
    intro i hi
    have h1 := hmax i hi
    have h2 := hm i hi
    exact hf (cnt i) (by rw [List.mem_range'_1]; omega) ((hpt _).2 ⟨i, hi, rfl⟩)
  | some k =>
    left
    refine ⟨k, rfl, (hpt k).1 (List.find?_some hf), ?_⟩
    intro i hi
    rw [List.find?_range'_eq_some] at hf
    by_contra hlt
    have h3 := hf.2.2 (cnt i) (by have := hm i hi; omega) (by omega)
    rw [(hpt _).2 ⟨i, hi, rfl⟩] at h3
    simp at h3

/-! ### The cache -/

/-- The `CR_LFU` holds the objects `c`, touched in this order, with these counts. -/
structure FRep (f : CRLFU) (c : Contents) (order : List ObjId) (cnt : ObjId → Nat) : Prop where
  tn : (f.base.tbl.map (·.id)).Nodup
  tc : (cont f.base.tbl).Perm c
  tm : ∀ o ∈ f.base.tbl, o.mt = cnt o.id
  op : order.Perm c.ids
  nodes : Nodes f.nodes order cnt
  max : ∀ i ∈ order, cnt i ≤ f.maxFreq
  pos : ∀ i ∈ order, 1 ≤ cnt i
  min : order ≠ [] → ∃ m, f.minFreq = some m ∧ IsMin order cnt m

namespace FRep
variable {f : CRLFU} {c : Contents} {order : List ObjId} {cnt : ObjId → Nat}

theorem tids (h : FRep f c order cnt) : (f.base.tbl.map (·.id)).Perm order := by
  have := h.tc.map Prod.fst
  have e : (cont f.base.tbl).map Prod.fst = f.base.tbl.map (·.id) := cont_ids _
  rw [e] at this
  exact this.trans h.op.symm

theorem nodup (h : FRep f c order cnt) : order.Nodup := h.tids.nodup_iff.1 h.tn

theorem lookup_none (h : FRep f c order cnt) {id : ObjId} : f.base.lookup id = none ↔ id ∉ order := by
  rw [lookup_none_iff', map_id_eq, h.tids.mem_iff]

theorem lookup_some (h : FRep f c order cnt) {id : ObjId} (hi : id ∈ order) : ∃ o, f.base.lookup id = some o ∧ o ∈ f.base.tbl ∧ o.id = id ∧ o.mt = cnt id ∧ (id, o.size) ∈ c := by
  cases hl : f.base.lookup id with
  | none => exact absurd hi (h.lookup_none.1 hl)
  | some o =>
    obtain ⟨h1, h2⟩ := lookup_some_mem hl
    refine ⟨o, rfl, h1, h2, by rw [h.tm o h1, h2], h.tc.subset ?_⟩
    rw [← h2]
    exact List.mem_map_of_mem (f := fun o : Obj Nat => (o.id, o.size)) h1

theorem perm (h : FRep f c order cnt) {c' : Contents} (hp : c.Perm c') : FRep f c' order cnt :=
  ⟨h.tn, h.tc.trans hp, h.tm, h.op.trans (hp.map _), h.nodes, h.max, h.pos, h.min⟩

theorem congr (h : FRep f c order cnt) {cnt' : ObjId → Nat} (hc : ∀ i ∈ order, cnt i = cnt' i) : FRep f c order cnt' := by
  refine ⟨h.tn, h.tc, ?_, h.op, ?_, ?_, ?_, ?_⟩
  · intro o ho
    rw [h.tm o ho]
    exact hc _ (h.tids.subset (List.mem_map_of_mem ho))
  · intro k; rw [h.nodes k, cls_congr hc]
  · intro i hi; rw [← hc i hi]; exact h.max i hi
  · intro i hi; rw [← hc i hi]; exact h.pos i hi
  · intro hne
    obtain ⟨m, h1, ⟨i, hi, e⟩, h3⟩ := h.min hne
    exact ⟨m, h1, ⟨i, hi, by rw [← hc i hi]; exact e⟩, fun j hj => by rw [← hc j hj]; exact h3 j hj⟩

theorem find_false (f : CRLFU) (r : Req) : f.find r false = .ok f := by
  unfold CRLFU.find
  rw [findBase_false]
  cases f.base.lookup r.id <;> rfl

theorem find_miss (h : FRep f c order cnt) {r : Req} (hn : r.id ∉ order) : f.find r true = .ok f := by
  unfold CRLFU.find
  rw [findBase_miss (h.lookup_none.2 hn)]

/-- taking an object out of the table -/
theorem del_tbl (h : FRep f c order cnt) {id : ObjId} (hi : id ∈ order) :
    ∃ b', f.base.removeObjBase id = .ok b' ∧ (b'.tbl.map (·.id)).Nodup ∧ (cont b'.tbl).Perm (c.filter (fun x => x.1 ≠ id)) ∧ ∀ o ∈ b'.tbl, o ∈ f.base.tbl := by
  obtain ⟨o, h1, h2, h3, h4, h5⟩ := h.lookup_some hi
  have e : f.base.tbl.eraseP (fun o => o.id == id) = delL id f.base.tbl := eraseP_eq_delL h.tn
  refine ⟨_, by simp only [Base.removeObjBase, h1]; rfl, ?_, ?_, ?_⟩
  · show ((f.base.tbl.eraseP (fun o => o.id == id)).map (·.id)).Nodup
    rw [e, delL_ids]; exact h.tn.filter _
  · show (cont (f.base.tbl.eraseP (fun o => o.id == id))).Perm _
    rw [e, delL_cont]
    exact h.tc.filter _
  · intro x hx
    have hx' : x ∈ f.base.tbl.eraseP (fun o => o.id == id) := hx
    exact List.mem_of_mem_eraseP hx'

theorem drop_op (h : FRep f c order cnt) (id : ObjId) : (order.filter (fun i => i ≠ id)).Perm (Contents.ids (c.filter (fun x => x.1 ≠ id))) := by
  have e : Contents.ids (c.filter (fun x => x.1 ≠ id)) = c.ids.filter (fun i => i ≠ id) := by
    simp only [Contents.ids, List.filter_map]; rfl
  rw [e]
  exact h.op.filter _

theorem find_hit (h : FRep f c order cnt) {r : Req} (hi : r.id ∈ order) :
    ∃ f', f.find r true = .ok f' ∧ FRep f' c (r.id :: order.filter (fun i => i ≠ r.id)) (note cnt r.id (cnt r.id + 1)) := by
  obtain ⟨o, h1, h2, h3, h4, h5⟩ := h.lookup_some hi
  have hnd := h.nodup
  generalize hord : order.filter (fun i => i ≠ r.id) = order1
  have hni : r.id ∉ order1 := by rw [← hord]; simp
  have hsub : ∀ i ∈ order1, i ∈ order ∧ i ≠ r.id := by intro i hi'; rw [← hord] at hi'; simpa using hi'
  have hsub' : ∀ i ∈ order, i ≠ r.id → i ∈ order1 := by intro i hi' hne; rw [← hord]; simp [hi', hne]
  let F : Obj Nat → Obj Nat := fun o => { o with mt := o.mt + 1 }
  let mx := if f.maxFreq < cnt r.id + 1 then cnt r.id + 1 else f.maxFreq
  have hmx : f.maxFreq ≤ mx ∧ cnt r.id + 1 ≤ mx := by simp only [mx]; split <;> omega
  let f1 : CRLFU := { f with base := (f.base.modify r.id (touch r)).modify r.id F, maxFreq := mx }
  obtain ⟨nodes2, k1, k2⟩ := take_ok (f := f1) h.nodes hnd hi
  rw [hord] at k2
  obtain ⟨nodes3, k3, k4⟩ := put_ok (f := { f1 with nodes := nodes2 }) k2 hni (cnt r.id + 1)
  have hfind : f.find r true = .ok (({ f1 with nodes := nodes3 } : CRLFU).settle (cnt r.id)) := by
    unfold CRLFU.find
    rw [findBase_hit h1]
    have et : (touch r o).mt = cnt r.id := h4
    simp only [if_true, et]
    rw [k1, Res.bind_ok, k3, Res.bind_ok]
  have hmin0 := h.min (List.ne_nil_of_mem hi)
  obtain ⟨m, hm1, ⟨w, hw1, hw2⟩, hm3⟩ := hmin0
  -- the invariant without `min`
  have base : ∀ mf : Option Nat, (∃ m, mf = some m ∧ IsMin (r.id :: order1) (note cnt r.id (cnt r.id + 1)) m) →
      FRep { f1 with nodes := nodes3, minFreq := mf } c (r.id :: order1) (note cnt r.id (cnt r.id + 1)) := by
    intro mf hmf
    have eid : ((f.base.modify r.id (touch r)).modify r.id F).tbl.map (·.id) = f.base.tbl.map (·.id) := by
      show (modL r.id F (modL r.id (touch r) f.base.tbl)).map (·.id) = _
      rw [modL_ids r.id F (fun _ => rfl), modL_ids r.id (touch r) (fun _ => rfl)]
    refine ⟨by rw [eid]; exact h.tn, ?_, ?_, ?_, k4, ?_, ?_, fun _ => hmf⟩
    · show (cont (modL r.id F (modL r.id (touch r) f.base.tbl))).Perm c
      rw [modL_cont r.id F (fun _ => rfl) (fun _ => rfl), modL_cont r.id (touch r) (fun _ => rfl) (fun _ => rfl)]
      exact h.tc
    · intro x hx
      have hx' : x ∈ modL r.id F (modL r.id (touch r) f.base.tbl) := hx
      simp only [modL, List.map_map, List.mem_map, Function.comp] at hx'
      obtain ⟨y, hy, rfl⟩ := hx'
      by_cases e : y.id = r.id
      · have et : (touch r y).id = r.id := e
        simp only [if_pos e, if_pos et]
        show y.mt + 1 = note cnt r.id (cnt r.id + 1) y.id
        rw [e, note_same, h.tm y hy, e]
      · simp only [if_neg e]
        rw [note_ne e]; exact h.tm y hy
    · have hp : order.Perm (r.id :: order1) := by
        rw [← hord, ← erase_eq_filter hnd]
        exact List.perm_cons_erase hi
      exact hp.symm.trans h.op
    · intro i hi'
      show _ ≤ mx
      rcases List.mem_cons.1 hi' with rfl | hi'
      · rw [note_same]; omega
      · rw [note_ne (hsub i hi').2]
        have := h.max i (hsub i hi').1
        omega
    · intro i hi'
      rcases List.mem_cons.1 hi' with rfl | hi'
      · rw [note_same]; omega
      · rw [note_ne (hsub i hi').2]
        exact h.pos i (hsub i hi').1
  refine ⟨_, hfind, ?_⟩
  unfold CRLFU.settle
  have hnk : ((nodes3 (cnt r.id)).getD {}).n = ((cls order1 cnt (cnt r.id)).length : Nat) := by
    rw [k4 (cnt r.id), cls_front hni, if_neg (by omega)]
  have hge : ∀ i ∈ r.id :: order1, m ≤ note cnt r.id (cnt r.id + 1) i := by
    intro i hi'
    rcases List.mem_cons.1 hi' with rfl | hi'
    · rw [note_same]; have := hm3 _ hi; omega
    · rw [note_ne (hsub i hi').2]; exact hm3 i (hsub i hi').1
  split
  · rename_i hc
    obtain ⟨hc1, hc2⟩ := hc
    have hmk : m = cnt r.id := by
      have : f.minFreq = some (cnt r.id) := hc1
      rw [hm1] at this; exact Option.some.inj this
    have hem : cls order1 cnt (cnt r.id) = [] := by
      apply List.length_eq_zero_iff.1
      have : ((nodes3 (cnt r.id)).getD {}).n = 0 := hc2
      rw [hnk] at this; omega
    have hgt : ∀ i ∈ r.id :: order1, cnt r.id < note cnt r.id (cnt r.id + 1) i := by
      intro i hi'
      have h0 := hge i hi'
      rw [hmk] at h0
      rcases List.mem_cons.1 hi' with rfl | hi2
      · rw [note_same]; omega
      · rw [note_ne (hsub i hi2).2] at h0 ⊢
        refine Nat.lt_of_le_of_ne h0 ?_
        intro e
        have : i ∈ cls order1 cnt (cnt r.id) := mem_cls.2 ⟨hi2, e.symm⟩
        rw [hem] at this; cases this
    have hb := base f.minFreq
    rcases scan_spec (f := { f1 with nodes := nodes3 }) k4 (m := cnt r.id) (by
        intro i hi'
        show _ ≤ mx
        rcases List.mem_cons.1 hi' with rfl | hi'
        · rw [note_same]; omega
        · rw [note_ne (hsub i hi').2]
          have := h.max i (hsub i hi').1
          omega) hgt with ⟨k, hk1, hk2⟩ | ⟨_, hk2⟩
    · rw [hk1]
      exact base (some k) ⟨k, rfl, hk2⟩
    · cases hk2
  · rename_i hc
    refine base f.minFreq ⟨m, hm1, ?_, hge⟩
    by_cases e : m = cnt r.id
    · have hne : cls order1 cnt (cnt r.id) ≠ [] := by
        intro e0
        refine hc ⟨by show f.minFreq = _; rw [hm1, e], ?_⟩
        show ((nodes3 (cnt r.id)).getD {}).n = 0
        rw [hnk, e0]; rfl
      obtain ⟨i, hi'⟩ := List.exists_mem_of_ne_nil _ hne
      obtain ⟨h6, h7⟩ := mem_cls.1 hi'
      exact ⟨i, by simp [h6], by rw [note_ne (hsub i h6).2, h7, e]⟩
    · have hwne : w ≠ r.id := by rintro rfl; exact e hw2.symm
      exact ⟨w, by simp [hsub' w hw1 hwne], by rw [note_ne hwne]; exact hw2⟩

theorem insert_ok (h : FRep f c order cnt) {H : QState Meta} {r : Req} (hi : r.id ∉ order) (he : order = [] → f.minFreq = none ∨ loadFreq H r.id = 1) (hz : 1 ≤ loadFreq H r.id) :
    ∃ f', f.insert H r = .ok f' ∧ FRep f' ((r.id, r.size % u32) :: c) (r.id :: order) (note cnt r.id (loadFreq H r.id)) := by
  generalize hk : loadFreq H r.id = k at he hz
  obtain ⟨nodes2, k1, k2⟩ := put_ok (f := { f with base := f.base.insertBase k r, minFreq := if k = 1 then some 1 else f.minFreq }) h.nodes hi k
  have hins : f.insert H r = .ok (match (if k = 1 then some 1 else f.minFreq : Option Nat) with
      | none => { f with base := f.base.insertBase k r, nodes := nodes2, maxFreq := if f.maxFreq < k then k else f.maxFreq, minFreq := some k }
      | some m => if m > k then { f with base := f.base.insertBase k r, nodes := nodes2, maxFreq := if f.maxFreq < k then k else f.maxFreq, minFreq := some k }
        else { f with base := f.base.insertBase k r, nodes := nodes2, maxFreq := if f.maxFreq < k then k else f.maxFreq, minFreq := if k = 1 then some 1 else f.minFreq }) := by
    unfold CRLFU.insert
    simp only [hk, k1, Res.bind_ok]
    cases (if k = 1 then some 1 else f.minFreq : Option Nat) <;> rfl
  have hne : ∀ i ∈ order, i ≠ r.id := by rintro i hi' rfl; exact hi hi'
  have base : ∀ mf : Option Nat, (∃ m, mf = some m ∧ IsMin (r.id :: order) (note cnt r.id k) m) →
      FRep { f with base := f.base.insertBase k r, nodes := nodes2, maxFreq := if f.maxFreq < k then k else f.maxFreq, minFreq := mf } ((r.id, r.size % u32) :: c) (r.id :: order) (note cnt r.id k) := by
    intro mf hmf
    refine ⟨?_, h.tc.cons _, ?_, h.op.cons _, k2, ?_, ?_, fun _ => hmf⟩
    · show (r.id :: f.base.tbl.map (·.id)).Nodup
      exact List.nodup_cons.2 ⟨fun hm => hi (h.tids.subset hm), h.tn⟩
    · intro o ho
      rcases List.mem_cons.1 ho with rfl | ho
      · show k = note cnt r.id k r.id
        rw [note_same]
      · rw [note_ne (hne _ (h.tids.subset (List.mem_map_of_mem ho)))]; exact h.tm o ho
    · intro i hi'
      show _ ≤ if f.maxFreq < k then k else f.maxFreq
      rcases List.mem_cons.1 hi' with rfl | hi'
      · rw [note_same]; split <;> omega
      · rw [note_ne (hne i hi')]
        have := h.max i hi'
        split <;> omega
    · intro i hi'
      rcases List.mem_cons.1 hi' with rfl | hi'
      · rw [note_same]; exact hz
      · rw [note_ne (hne i hi')]
        exact h.pos i hi'
  refine ⟨_, hins, ?_⟩
  have hfirst : note cnt r.id k r.id = k := note_same _ _ _
  by_cases hk1 : k = 1
  · subst hk1
    simp only [if_true, gt_iff_lt, Nat.lt_irrefl, if_false]
    exact base (some 1) ⟨1, rfl, ⟨r.id, by simp, hfirst⟩, fun i hi' => by
        rcases List.mem_cons.1 hi' with rfl | hi'
        · rw [hfirst]; exact Nat.le_refl _
        · rw [note_ne (hne i hi')]; exact h.pos i hi'⟩
  · simp only [if_neg hk1]
    by_cases hne' : order = []
    · subst hne'
      rcases he rfl with e | e
      · simp only [e]
        exact base (some k) ⟨k, rfl, ⟨r.id, by simp, hfirst⟩, fun i hi' => by
          rcases List.mem_cons.1 hi' with rfl | hi'
          · rw [hfirst]; exact Nat.le_refl _
          · cases hi'⟩
      · exact absurd e hk1
    · obtain ⟨m, hm1, ⟨w, hw1, hw2⟩, hm3⟩ := h.min hne'
      simp only [hm1]
      split
      · rename_i hlt
        exact base (some k) ⟨k, rfl, ⟨r.id, by simp, hfirst⟩, fun i hi' => by
          rcases List.mem_cons.1 hi' with rfl | hi'
          · rw [hfirst]; exact Nat.le_refl _
          · rw [note_ne (hne i hi')]; have := hm3 i hi'; omega⟩
      · rename_i hlt
        exact base (some m) ⟨m, rfl, ⟨w, by simp [hw1], by rw [note_ne (hne w hw1)]; exact hw2⟩, fun i hi' => by
          rcases List.mem_cons.1 hi' with rfl | hi'
          · rw [hfirst]; omega
          · rw [note_ne (hne i hi')]; exact hm3 i hi'⟩

theorem minNode_ok (h : FRep f c order cnt) (hne : order ≠ []) :
    ∃ m, f.minFreq = some m ∧ IsMin order cnt m ∧ f.minNode = .ok ⟨((cls order cnt m).length : Nat), cls order cnt m⟩ := by
  obtain ⟨m, hm1, ⟨w, hw1, hw2⟩, hm3⟩ := h.min hne
  refine ⟨m, hm1, ⟨⟨w, hw1, hw2⟩, hm3⟩, ?_⟩
  have := h.nodes.some hw1
  rw [hw2] at this
  simp only [CRLFU.minNode, hm1, this]

/-- the least recently added of the class with the smallest count is the proposal -/
theorem last_min {m : Nat} (hm : IsMin order cnt m) :
    ∃ id, id ∈ order ∧ cnt id = m ∧ (cls order cnt m).getLast? = some id ∧ order.find? (fun i => order.all (fun j => decide (cnt i ≤ cnt j))) = some id := by
  have e : order.find? (fun i => order.all (fun j => decide (cnt i ≤ cnt j))) = order.find? (fun i => decide (cnt i = m)) := by
    obtain ⟨⟨w, hw1, hw2⟩, hm3⟩ := hm
    apply find?_congr'
    intro i hi
    rw [Bool.eq_iff_iff]
    simp only [List.all_eq_true, decide_eq_true_eq]
    constructor
    · intro h
      have h1 := h w hw1
      have h2 := hm3 i hi
      omega
    · intro h j hj
      rw [h]; exact hm3 j hj
  obtain ⟨⟨w, hw1, hw2⟩, hm3⟩ := hm
  rw [e]
  cases hf : order.find? (fun i => decide (cnt i = m)) with
  | none =>
    rw [List.find?_eq_none] at hf
    exact absurd (by simpa using hw2) (hf w hw1)
  | some id =>
    refine ⟨id, List.mem_of_find?_eq_some hf, by simpa using List.find?_some hf, ?_, rfl⟩
    unfold cls
    rw [List.getLast?_reverse, List.head?_filter, hf]

theorem toEvict_ok (h : FRep f c order cnt) (hne : order ≠ []) :
    ∃ id, id ∈ order ∧ f.toEvict = .ok (some id) ∧ order.find? (fun i => order.all (fun j => decide (cnt i ≤ cnt j))) = some id := by
  obtain ⟨m, h1, h2, h3⟩ := h.minNode_ok hne
  obtain ⟨id, h4, h5, h6, h7⟩ := last_min h2
  exact ⟨id, h4, by simp only [CRLFU.toEvict, h3, Res.bind_ok, h6], h7⟩

theorem evict_ok (h : FRep f c order cnt) {H : QState Meta} {id : ObjId} (hid : order.find? (fun i => order.all (fun j => decide (cnt i ≤ cnt j))) = some id)
    (hH : (H.base.lookup id).isSome = true) :
    ∃ f', f.evict H = .ok (f', H.modify id (fun o => { o with mt := { o.mt with freq := cnt id } })) ∧
      FRep f' (c.filter (fun x => x.1 ≠ id)) (order.filter (fun i => i ≠ id)) cnt ∧ (order.filter (fun i => i ≠ id) = [] → f'.minFreq = none) := by
  have hi : id ∈ order := List.mem_of_find?_eq_some hid
  have hnd := h.nodup
  obtain ⟨m, h1, h2, h3⟩ := h.minNode_ok (List.ne_nil_of_mem hi)
  obtain ⟨id', h4, h5, h6, h7⟩ := last_min h2
  obtain rfl : id' = id := by rw [hid] at h7; exact (Option.some.inj h7).symm
  obtain ⟨o, l1, l2, l3, l4, l5⟩ := h.lookup_some hi
  obtain ⟨b', d1, d2, d3, d4⟩ := h.del_tbl hi
  obtain ⟨q, hq⟩ : ∃ q, cls order cnt m = q ++ [id'] := List.getLast?_eq_some_iff.1 h6
  have hqn : id' ∉ q := by
    have := cls_nodup (cnt := cnt) (k := m) hnd
    rw [hq] at this
    have := (List.nodup_append.1 this).2.2
    intro hm
    exact this _ hm _ (by simp) rfl
  have hdrop : (cls order cnt m).dropLast = cls (order.filter (fun i => i ≠ id')) cnt m := by
    rw [cls_drop hnd, hq, List.dropLast_concat, List.erase_append_right _ hqn]; simp
  have hoff : offload H id' o.mt = .ok (H.modify id' (fun o => { o with mt := { o.mt with freq := cnt id' } })) := by
    obtain ⟨y, hy⟩ := Option.isSome_iff_exists.1 hH
    simp only [offload, hy, l4]
  have hev : f.evict H = .ok ({ f.dropLast ⟨((cls order cnt m).length : Nat), cls order cnt m⟩ with base := b' }, H.modify id' (fun o => { o with mt := { o.mt with freq := cnt id' } })) := by
    simp only [CRLFU.evict, h3, Res.bind_ok, h6, l1, hoff, d1]
  have hlen : (cls order cnt m).length = (cls (order.filter (fun i => i ≠ id')) cnt m).length + 1 := by
    rw [← hdrop, hq]; simp
  have hnodes : Nodes (setNode f.nodes m (some ⟨((cls order cnt m).length : Nat) - 1, (cls order cnt m).dropLast⟩)) (order.filter (fun i => i ≠ id')) cnt := by
    rw [hdrop]
    refine h.nodes.set (fun j hj => cls_drop_ne hnd (by omega)) _ ?_
    rw [hlen]; omega
  have hsub : ∀ i ∈ order.filter (fun i => i ≠ id'), i ∈ order := fun i hi' => (List.mem_filter.1 hi').1
  have base : ∀ mf : Option Nat, (order.filter (fun i => i ≠ id') ≠ [] → ∃ m, mf = some m ∧ IsMin (order.filter (fun i => i ≠ id')) cnt m) →
      FRep { f with base := b', nodes := setNode f.nodes m (some ⟨((cls order cnt m).length : Nat) - 1, (cls order cnt m).dropLast⟩), minFreq := mf }
        (c.filter (fun x => x.1 ≠ id')) (order.filter (fun i => i ≠ id')) cnt := fun mf hmf =>
    ⟨d2, d3, fun x hx => h.tm x (d4 x hx), h.drop_op id', hnodes, fun i hi' => h.max i (hsub i hi'), fun i hi' => h.pos i (hsub i hi'), hmf⟩
  refine ⟨_, hev, ?_⟩
  unfold CRLFU.dropLast
  simp only [h1, Option.getD_some]
  by_cases hc : (cls order cnt m).length = 1
  · rw [if_pos hc]
    have hem : cls (order.filter (fun i => i ≠ id')) cnt m = [] := List.length_eq_zero_iff.1 (by omega)
    have hs := scan_spec (f := { f with nodes := setNode f.nodes m (some ⟨((cls order cnt m).length : Nat) - 1, (cls order cnt m).dropLast⟩) }) hnodes (m := m)
      (fun i hi' => h.max i (hsub i hi')) (fun i hi' => by
        refine Nat.lt_of_le_of_ne (h2.2 i (hsub i hi')) ?_
        intro e
        have : i ∈ cls (order.filter (fun i => i ≠ id')) cnt m := mem_cls.2 ⟨hi', e.symm⟩
        rw [hem] at this; cases this)
    rw [h1] at hs
    constructor
    · refine base _ (fun hne => ?_)
      rcases hs with ⟨k, hk1, hk2⟩ | ⟨_, hk2⟩
      · exact ⟨k, hk1, hk2⟩
      · exact absurd hk2 hne
    · intro hne
      rcases hs with ⟨k, hk1, ⟨⟨i, hi', _⟩, _⟩⟩ | ⟨hk1, _⟩
      · rw [hne] at hi'; cases hi'
      · exact hk1
  · rw [if_neg hc]
    obtain ⟨i, hi'⟩ := List.exists_mem_of_length_pos (l := cls (order.filter (fun i => i ≠ id')) cnt m) (by omega)
    obtain ⟨h8, h9⟩ := mem_cls.1 hi'
    constructor
    · exact base (some m) (fun _ => ⟨m, rfl, ⟨i, h8, h9⟩, fun j hj => h2.2 j (hsub j hj)⟩)
    · intro hne; rw [hne] at h8; cases h8

theorem remove_miss (h : FRep f c order cnt) {H : QState Meta} {id : ObjId} (hn : id ∉ order) : f.remove H id = .ok (false, f, H) := by
  simp only [CRLFU.remove, h.lookup_none.2 hn]

theorem remove_ok (h : FRep f c order cnt) {H : QState Meta} {id : ObjId} (hi : id ∈ order) (hH : (H.base.lookup id).isSome = true) :
    ∃ f', f.remove H id = .ok (true, f', H.modify id (fun o => { o with mt := { o.mt with freq := cnt id } })) ∧
      FRep f' (c.filter (fun x => x.1 ≠ id)) (order.filter (fun i => i ≠ id)) cnt := by
  have hnd := h.nodup
  obtain ⟨o, l1, l2, l3, l4, l5⟩ := h.lookup_some hi
  obtain ⟨b', d1, d2, d3, d4⟩ := h.del_tbl hi
  obtain ⟨nodes', k1, k2⟩ := take_ok (f := f) h.nodes hnd hi
  obtain ⟨m, hm1, ⟨w, hw1, hw2⟩, hm3⟩ := h.min (List.ne_nil_of_mem hi)
  have hoff : offload H id o.mt = .ok (H.modify id (fun o => { o with mt := { o.mt with freq := cnt id } })) := by
    obtain ⟨y, hy⟩ := Option.isSome_iff_exists.1 hH
    simp only [offload, hy, l4]
  have hsub : ∀ i ∈ order.filter (fun i => i ≠ id), i ∈ order := fun i hi' => (List.mem_filter.1 hi').1
  have base : ∀ mf : Option Nat, (order.filter (fun i => i ≠ id) ≠ [] → ∃ m, mf = some m ∧ IsMin (order.filter (fun i => i ≠ id)) cnt m) →
      FRep { f with base := b', nodes := nodes', minFreq := mf } (c.filter (fun x => x.1 ≠ id)) (order.filter (fun i => i ≠ id)) cnt := fun mf hmf =>
    ⟨d2, d3, fun x hx => h.tm x (d4 x hx), h.drop_op id, k2, fun i hi' => h.max i (hsub i hi'), fun i hi' => h.pos i (hsub i hi'), hmf⟩
  -- the node of the smallest frequency is still there
  have hnode : nodes' m = some ⟨((cls (order.filter (fun i => i ≠ id)) cnt m).length : Nat), cls (order.filter (fun i => i ≠ id)) cnt m⟩ := by
    have h0 := k2 m
    cases hn : nodes' m with
    | some nd => rw [hn] at h0; exact congrArg Option.some h0
    | none =>
      exfalso
      have e1 : f.nodes m = some ⟨((cls order cnt m).length : Nat), cls order cnt m⟩ := by
        have := h.nodes.some hw1; rw [hw2] at this; exact this
      have hm' : id ∈ cls order cnt (cnt id) := mem_cls.2 ⟨hi, rfl⟩
      simp only [CRLFU.take, h.nodes.some hi, qRemove, if_pos hm', Res.bind_ok] at k1
      have k3 := congrArg CRLFU.nodes (Except.ok.inj k1)
      simp only at k3
      rw [← k3] at hn
      simp only [setNode] at hn
      split at hn
      · cases hn
      · rw [e1] at hn; cases hn
  have hrem : f.remove H id = (({ f with base := b', nodes := nodes' } : CRLFU).fixMin >>= fun f2 => .ok (true, f2, H.modify id (fun o => { o with mt := { o.mt with freq := cnt id } }))) := by
    have k1' : f.take id o.mt = .ok { f with nodes := nodes' } := by rw [l4]; exact k1
    simp only [CRLFU.remove, l1, hoff, Res.bind_ok, k1', d1]
  have hmn : ({ f with base := b', nodes := nodes' } : CRLFU).minNode = .ok ⟨((cls (order.filter (fun i => i ≠ id)) cnt m).length : Nat), cls (order.filter (fun i => i ≠ id)) cnt m⟩ := by
    simp only [CRLFU.minNode, hm1, hnode]
  rw [hrem]
  unfold CRLFU.fixMin
  rw [hmn, Res.bind_ok]
  by_cases hc : ((cls (order.filter (fun i => i ≠ id)) cnt m).length : Int) = 0
  · have hem : cls (order.filter (fun i => i ≠ id)) cnt m = [] := List.length_eq_zero_iff.1 (by omega)
    rw [if_pos hc]
    have hs := scan_spec (f := { f with base := b', nodes := nodes' }) k2 (m := m)
      (fun i hi' => h.max i (hsub i hi')) (fun i hi' => by
        refine Nat.lt_of_le_of_ne (hm3 i (hsub i hi')) ?_
        intro e
        have : i ∈ cls (order.filter (fun i => i ≠ id)) cnt m := mem_cls.2 ⟨hi', e.symm⟩
        rw [hem] at this; cases this)
    simp only [hm1, Option.getD_some]
    rw [hm1] at hs
    rcases hs with ⟨k, hk1, hk2⟩ | ⟨hk1, hk2⟩
    · rw [hk1]
      exact ⟨_, rfl, base (some k) (fun _ => ⟨k, rfl, hk2⟩)⟩
    · rw [hk1]
      exact ⟨_, rfl, base (some m) (fun hne => absurd hk2 hne)⟩
  · rw [if_neg hc]
    obtain ⟨i, hi'⟩ := List.exists_mem_of_length_pos (l := cls (order.filter (fun i => i ≠ id)) cnt m) (by omega)
    obtain ⟨h8, h9⟩ := mem_cls.1 hi'
    exact ⟨_, rfl, base f.minFreq (fun _ => ⟨m, hm1, ⟨i, h8, h9⟩, fun j hj => hm3 j (hsub j hj)⟩)⟩

end FRep
end Verif.Cacheus
