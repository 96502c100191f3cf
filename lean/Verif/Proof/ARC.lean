import Verif.Proof.Lists
import Verif.Base.Medium
import Verif.Algo.ARC
/-!
# ARC keeps its four lists as specified
-/

namespace Verif.ARC
open Verif Spec Spec.Adaptive
open Verif.Lists (Rep put_self put_ne put_put without_ids without_perm without_charge without_last last_of_pos onLists)

variable {R : Arith}

/-- queues and counters describe the lists `a` -/
structure QS (md : Nat) (a : Lists) (q : Lst → List ObjId) (z : Lst → Int) : Prop where
  q : ∀ k, q k = (a k).ids
  z : ∀ k, z k = (charge md (a k) : Nat)

/-- The state holds the lists `a`. -/
structure Abs (cs md : Nat) (a : Lists) (s : State R) : Prop where
  rep : Rep (fun k : Lst => k) a s.base
  csz : s.base.cacheSize = cs
  mdz : s.base.objMd = md
  small : ∀ o ∈ s.base.tbl, o.size + md < u32
  qs : QS md a s.q s.sz
  occ : s.base.occ = (charge md (a .T1) + charge md (a .T2) : Nat)
  nObj : s.base.nObj = ((a .T1).length + (a .T2).length : Nat)
  cap : charge md (a .T1) + charge md (a .T2) ≤ cs

theorem upd_self {α : Type} (f : Lst → α) (i : Lst) (v : α) : upd f i v i = v := by simp [upd]
theorem upd_ne {α : Type} (f : Lst → α) {i j : Lst} (h : j ≠ i) (v : α) : upd f i v j = f j := by simp [upd, h]

theorem without_length {c : Contents} {x : ObjId × Nat} (hn : c.ids.Nodup) (hx : x ∈ c) : c.length = (Lists.without x.1 c).length + 1 := by
  have := (without_perm hn hx).length_eq
  simpa using this

section
variable {cs md : Nat} {a : Lists} {s : State R}

theorem takeOff_spec (h : QS md a s.q s.sz) (hmd : s.base.objMd = md) {k : Lst} (hn : (a k).ids.Nodup) {x : ObjId × Nat} (hx : x ∈ a k) {o : Obj Lst}
    (hid : o.id = x.1) (hs : o.size = x.2) (hlt : o.size + md < u32) :
    ∃ q' z', takeOff s k o = .ok { s with q := q', sz := z' } ∧ QS md (Lists.put a k (Lists.without x.1 (a k))) q' z' := by
  have hin : x.1 ∈ s.q k := by rw [h.q]; exact List.mem_map_of_mem hx
  refine ⟨upd s.q k ((s.q k).erase x.1), upd s.sz k (s.sz k - osz s o), ?_, fun j => ?_, fun j => ?_⟩
  · rw [takeOff, hid, qRemove, if_pos hin, Res.bind_ok]
  · by_cases e : j = k
    · subst e; rw [upd_self, put_self, h.q, without_ids _ _ hn]
    · rw [upd_ne _ e, put_ne _ e, h.q]
  · by_cases e : j = k
    · subst e
      rw [upd_self, put_self, h.z, osz, hmd, Nat.mod_eq_of_lt hlt, without_charge hn hx, hs]; push_cast; omega
    · rw [upd_ne _ e, put_ne _ e, h.z]

theorem putOn_spec (h : QS md a s.q s.sz) {k : Lst} {x : ObjId × Nat} (hx : x.1 ∉ (a k).ids) (n : Int) (hn : n = (x.2 + md : Nat)) :
    ∃ q' z', putOn s k x.1 n = .ok { s with q := q', sz := z' } ∧ QS md (Lists.put a k (x :: a k)) q' z' := by
  have hin : x.1 ∉ s.q k := by rw [h.q]; exact hx
  refine ⟨upd s.q k (x.1 :: s.q k), upd s.sz k (s.sz k + n), ?_, fun j => ?_, fun j => ?_⟩
  · rw [putOn, qPrepend, if_neg hin, Res.bind_ok]
  · by_cases e : j = k
    · subst e; rw [upd_self, put_self, h.q]; rfl
    · rw [upd_ne _ e, put_ne _ e, h.q]
  · by_cases e : j = k
    · subst e
      rw [upd_self, put_self, h.z, hn]; simp only [charge]; push_cast; omega
    · rw [upd_ne _ e, put_ne _ e, h.z]

namespace Abs

theorem obj (h : Abs cs md a s) {k : Lst} {x : ObjId × Nat} (hx : x ∈ a k) :
    ∃ o, s.base.lookup x.1 = some o ∧ o.size = x.2 ∧ o.mt = k ∧ o.id = x.1 ∧ o.size + md < u32 := by
  obtain ⟨o, h1, h2, h3⟩ := h.rep.lookup hx
  obtain ⟨h4, h5⟩ := lookup_some_mem h1
  exact ⟨o, h1, h2, h3, h5, h.small o h4⟩

theorem frame (h : Abs cs md a s) (m : Nat) (ad : Adm) (p : R.P) (b1 b2 : Bool) (v : Int) :
    Abs cs md a { s with base := { s.base with nReq := m, adm := ad }, p := p, inB1 := b1, inB2 := b2, vtime := v } :=
  ⟨h.rep.congr rfl, h.csz, h.mdz, h.small, h.qs, h.occ, h.nObj, h.cap⟩

theorem osz_eq (h : Abs cs md a s) {o : Obj Lst} (hlt : o.size + md < u32) : osz s o = (o.size + md : Nat) := by
  rw [osz, h.mdz, Nat.mod_eq_of_lt hlt]

theorem small_modify (h : Abs cs md a s) (id : ObjId) (f : Obj Lst → Obj Lst) (hf : ∀ o, (f o).size = o.size) :
    ∀ o ∈ (s.base.modify id f).tbl, o.size + md < u32 := by
  intro o ho
  simp only [Base.modify, List.mem_map] at ho
  obtain ⟨o', ho', rfl⟩ := ho
  have := h.small o' ho'
  split
  · rw [hf]; exact this
  · exact this

/-- `cache_find_base` with update. -/
theorem touch (h : Abs cs md a s) (r : Req) : Abs cs md a { s with base := s.base.modify r.id (Verif.touch r) } :=
  ⟨h.rep.modify r.id (Verif.touch r) (fun _ => rfl) (fun _ => rfl) (fun _ => rfl) rfl, h.csz, h.mdz, h.small_modify r.id (Verif.touch r) (fun _ => rfl), h.qs, h.occ, h.nObj, h.cap⟩

/-- a ghost is taken off its list and deleted -/
theorem dropGhost (h : Abs cs md a s) {k : Lst} (hk : ghost k = true) {x : ObjId × Nat} (hx : x ∈ a k) {o : Obj Lst} (hid : o.id = x.1) (hs : o.size = x.2)
    (hlt : o.size + md < u32) :
    ∃ q' z', takeOff s k o = .ok { s with q := q', sz := z' } ∧
      Abs cs md (drop a k x) { s with q := q', sz := z', base := s.base.del x.1 } := by
  obtain ⟨q', z', h1, h2⟩ := takeOff_spec h.qs h.mdz (h.rep.nd k) hx hid hs hlt
  have e1 : drop a k x .T1 = a .T1 := by cases k <;> first | rfl | simp [ghost] at hk
  have e2 : drop a k x .T2 = a .T2 := by cases k <;> first | rfl | simp [ghost] at hk
  refine ⟨q', z', h1, ⟨h.rep.del hx rfl, h.csz, h.mdz, ?_, h2, ?_, ?_, ?_⟩⟩
  · intro o' ho'; exact h.small o' (List.mem_of_mem_eraseP ho')
  · rw [e1, e2]; exact h.occ
  · rw [e1, e2]; exact h.nObj
  · rw [e1, e2]; exact h.cap

theorem ghostHit (h : Abs cs md a s) {k : Lst} (hk : ghost k = true) {x : ObjId × Nat} (hx : x ∈ a k) {o : Obj Lst} (hid : o.id = x.1) (hs : o.size = x.2)
    (hm : o.mt = k) :
    ∃ s', ghostHit s o = .ok s' ∧ Abs cs md (drop a k x) s' ∧ s'.vtime = s.base.nReq ∧ s'.base.nReq = s.base.nReq ∧ s'.base.adm = s.base.adm ∧
      s'.inB1 = (decide (k = .B1) || s.inB1) ∧ s'.inB2 = (decide (k = .B2) || s.inB2) ∧
      s'.p = (if k = .B1 then R.up s.p (charge md (a .B2) : Nat) (charge md (a .B1) : Nat) cs
        else R.down s.p (charge md (a .B1) : Nat) (charge md (a .B2) : Nat)) := by
  have hlt : o.size + md < u32 := by
    obtain ⟨o', _, h2, _, _, h5⟩ := h.obj hx
    rw [hs, ← h2]; exact h5
  cases k with
  | T1 => simp [ghost] at hk
  | T2 => simp [ghost] at hk
  | B1 =>
    obtain ⟨q', z', h1, h2⟩ := dropGhost (h.frame s.base.nReq s.base.adm (R.up s.p (s.sz .B2) (s.sz .B1) s.base.cacheSize) true s.inB2 s.base.nReq) hk hx hid hs hlt
    refine ⟨_, ?_, h2, rfl, rfl, rfl, rfl, rfl, ?_⟩
    · rw [ARC.ghostHit, if_pos hm, h1, Res.bind_ok, hid]
    · simp only [h.qs.z, h.csz, if_true]
  | B2 =>
    obtain ⟨q', z', h1, h2⟩ := dropGhost (h.frame s.base.nReq s.base.adm (R.down s.p (s.sz .B1) (s.sz .B2)) s.inB1 true s.base.nReq) hk hx hid hs hlt
    refine ⟨_, ?_, h2, rfl, rfl, rfl, rfl, rfl, ?_⟩
    · rw [ARC.ghostHit, if_neg (by rw [hm]; decide), h1, Res.bind_ok, hid]
    · simp only [h.qs.z]; rfl

theorem notMem_without (h : Abs cs md a s) {k : Lst} {x : ObjId × Nat} (hx : x ∈ a k) (j : Lst) : x.1 ∉ (Lists.put a k (Lists.without x.1 (a k)) j).ids := by
  intro hm
  obtain ⟨y, hy, hye⟩ := List.mem_map.1 hm
  exact ((h.rep.mem_without hx j y).1 hy).2 hye

theorem dataHit (h : Abs cs md a s) {k : Lst} (hk : ghost k = false) {x : ObjId × Nat} (hx : x ∈ a k) {o : Obj Lst} (hid : o.id = x.1) (hs : o.size = x.2)
    (hm : o.mt = k) :
    ∃ s', dataHit s o = .ok s' ∧ Abs cs md (hit a k x) s' ∧ s'.vtime = s.vtime ∧ s'.base.nReq = s.base.nReq ∧ s'.base.adm = s.base.adm ∧
      s'.inB1 = s.inB1 ∧ s'.inB2 = s.inB2 ∧ s'.p = s.p := by
  obtain ⟨o', g1, g2, g3, g4, g5⟩ := h.obj hx
  have hlt : o.size + md < u32 := by rw [hs, ← g2]; exact g5
  have hch := without_charge (md := md) (h.rep.nd k) hx
  have hlen := without_length (h.rep.nd k) hx
  cases k with
  | B1 => simp [ghost] at hk
  | B2 => simp [ghost] at hk
  | T1 =>
    obtain ⟨q', z', h1, h2⟩ := takeOff_spec (s := { s with base := s.base.modify o.id (fun o => { o with mt := .T2 }) }) h.qs h.mdz (h.rep.nd .T1) hx hid hs hlt
    obtain ⟨q'', z'', h3, h4⟩ := putOn_spec (s := { s with base := s.base.modify o.id (fun o => { o with mt := .T2 }), q := q', sz := z' }) h2 (k := .T2)
      (h.notMem_without hx .T2) (osz s o) (by rw [h.osz_eq hlt, hs])
    refine ⟨{ s with base := s.base.modify o.id (fun o => { o with mt := .T2 }), q := q'', sz := z'' }, ?_,
      ⟨?_, h.csz, h.mdz, h.small_modify o.id (fun o => { o with mt := .T2 }) (fun _ => rfl), h4, ?_, ?_, ?_⟩, rfl, rfl, rfl, rfl, rfl, rfl⟩
    · rw [ARC.dataHit, if_pos hm, h1, Res.bind_ok]
      rw [← hid] at h3
      exact h3
    · exact h.rep.move hx (fun o => { o with mt := .T2 }) (fun _ => rfl) (fun _ => rfl) (fun _ _ => rfl) (by rw [hid]) (List.Perm.refl _)
    · show s.base.occ = (charge md (Lists.without x.1 (a .T1)) + charge md (x :: a .T2) : Nat)
      rw [h.occ]; simp only [charge]; omega
    · show s.base.nObj = ((Lists.without x.1 (a .T1)).length + (x :: a .T2).length : Nat)
      rw [h.nObj]; simp only [List.length_cons]; omega
    · show charge md (Lists.without x.1 (a .T1)) + charge md (x :: a .T2) ≤ cs
      have := h.cap
      simp only [charge]; omega
  | T2 =>
    have hin : x.1 ∈ s.q .T2 := by rw [h.qs.q]; exact List.mem_map_of_mem hx
    refine ⟨{ s with q := upd s.q .T2 (x.1 :: (s.q .T2).erase x.1) }, ?_, ⟨?_, h.csz, h.mdz, h.small, ⟨fun j => ?_, fun j => ?_⟩, ?_, ?_, ?_⟩, rfl, rfl, rfl, rfl, rfl, rfl⟩
    · rw [ARC.dataHit, if_neg (by rw [hm]; decide), hid, qMoveToHead, if_pos hin, Res.bind_ok]
    · have hmod : s.base.tbl = (s.base.modify x.1 (fun o => o)).tbl := by simp [Base.modify]
      exact h.rep.move hx (fun o => o) (fun _ => rfl) (fun _ => rfl) (fun o ho => by rw [g1] at ho; cases ho; exact g3) hmod (List.Perm.refl _)
    · by_cases e : j = .T2
      · subst e
        show upd s.q .T2 _ .T2 = Contents.ids (x :: Lists.without x.1 (a .T2))
        rw [upd_self, h.qs.q, ← without_ids _ _ (h.rep.nd .T2)]; rfl
      · show upd s.q .T2 _ j = _
        rw [upd_ne _ e, h.qs.q]
        show _ = (Lists.put _ .T2 _ j).ids
        rw [put_ne _ e]
        show _ = (Lists.put _ .T2 _ j).ids
        rw [put_ne _ e]
    · by_cases e : j = .T2
      · subst e
        show s.sz .T2 = (charge md (x :: Lists.without x.1 (a .T2)) : Nat)
        rw [h.qs.z]; simp only [charge]; omega
      · show s.sz j = (charge md (Lists.put _ .T2 _ j) : Nat)
        rw [put_ne _ e]
        show s.sz j = (charge md (Lists.put _ .T2 _ j) : Nat)
        rw [put_ne _ e, h.qs.z]
    · show s.base.occ = (charge md (a .T1) + charge md (x :: Lists.without x.1 (a .T2)) : Nat)
      rw [h.occ]; simp only [charge]; omega
    · show s.base.nObj = ((a .T1).length + (x :: Lists.without x.1 (a .T2)).length : Nat)
      rw [h.nObj]; simp only [List.length_cons]; omega
    · show charge md (a .T1) + charge md (x :: Lists.without x.1 (a .T2)) ≤ cs
      have := h.cap
      simp only [charge]; omega

theorem tail (h : Abs cs md a s) {k : Lst} {c : Contents} {x : ObjId × Nat} (hc : a k = c ++ [x]) :
    ∃ o, tailObj s k = .ok o ∧ o.id = x.1 ∧ o.size = x.2 ∧ o.mt = k ∧ s.base.lookup x.1 = some o ∧ o.size + md < u32 := by
  obtain ⟨o, h1, h2, h3, h4, h5⟩ := h.obj (show x ∈ a k by rw [hc]; simp)
  refine ⟨o, ?_, h4, h2, h3, h1, h5⟩
  have : (s.q k).getLast? = some x.1 := by rw [h.qs.q, hc]; simp [Contents.ids]
  rw [tailObj, qTail, this]
  simp only [Res.bind_ok, h1]

/-- `_ARC_evict_L1_data`, `_ARC_evict_L2_data` -/
theorem demote (h : Abs cs md a s) {k g : Lst} (hkg : (k = .T1 ∧ g = .B1) ∨ (k = .T2 ∧ g = .B2)) {c : Contents} {x : ObjId × Nat} (hc : a k = c ++ [x]) :
    ∃ s', demote s k g = .ok s' ∧ Abs cs md (push (Adaptive.put a k c) g x) s' ∧ s'.vtime = s.vtime ∧ s'.base.nReq = s.base.nReq ∧ s'.base.adm = s.base.adm ∧
      s'.inB1 = s.inB1 ∧ s'.inB2 = s.inB2 ∧ s'.p = s.p := by
  obtain ⟨o, h1, h2, h3, h4, h5, h6⟩ := h.tail hc
  have hx : x ∈ a k := by rw [hc]; simp
  have hwo : Lists.without x.1 (a k) = c := by rw [hc]; exact without_last (by rw [← hc]; exact h.rep.nd k)
  have hch := without_charge (md := md) (h.rep.nd k) hx
  have hlen := without_length (h.rep.nd k) hx
  rw [hwo] at hch hlen
  obtain ⟨q', z', k1, k2⟩ := takeOff_spec (s := { s with base := { s.base with occ := s.base.occ - (((o.size + s.base.objMd) % u32 : Nat) : Int), nObj := s.base.nObj - 1 } })
    h.qs h.mdz (h.rep.nd k) hx h2 h3 h6
  obtain ⟨q'', z'', k3, k4⟩ := putOn_spec (s := { s with base := { s.base with occ := s.base.occ - (((o.size + s.base.objMd) % u32 : Nat) : Int), nObj := s.base.nObj - 1 }, q := q', sz := z' })
    k2 (k := g) (h.notMem_without hx g) (osz s o) (by rw [h.osz_eq h6, h3])
  refine ⟨{ s with base := { s.base with occ := s.base.occ - (((o.size + s.base.objMd) % u32 : Nat) : Int), nObj := s.base.nObj - 1 }.modify x.1 (fun o => { o with mt := g }), q := q'', sz := z'' },
    ?_, ⟨?_, h.csz, h.mdz, h.small_modify x.1 (fun o => { o with mt := g }) (fun _ => rfl), ?_, ?_, ?_, ?_⟩, rfl, rfl, rfl, rfl, rfl, rfl⟩
  · rw [ARC.demote, h1, Res.bind_ok, Base.removeObjBaseKeep, h2, h5]
    simp only [Res.bind_ok]
    rw [k1, Res.bind_ok, k3, Res.bind_ok]
  · have := h.rep.move hx (j := g) (fun o => { o with mt := g }) (fun _ => rfl) (fun _ => rfl) (fun _ _ => rfl) (rfl : (s.base.modify x.1 (fun o => { o with mt := g })).tbl = _) (List.Perm.refl _)
    rw [hwo] at this
    exact this.congr rfl
  · rw [hwo] at k4; exact k4
  · show s.base.occ - _ = _
    rw [h.mdz, Nat.mod_eq_of_lt h6, h.occ, h3]
    rcases hkg with ⟨rfl, rfl⟩ | ⟨rfl, rfl⟩
    · show _ = ((charge md c + charge md (a .T2) : Nat) : Int)
      omega
    · show _ = ((charge md (a .T1) + charge md c : Nat) : Int)
      omega
  · show s.base.nObj - 1 = _
    rw [h.nObj]
    rcases hkg with ⟨rfl, rfl⟩ | ⟨rfl, rfl⟩
    · show _ = ((c.length + (a .T2).length : Nat) : Int)
      omega
    · show _ = (((a .T1).length + c.length : Nat) : Int)
      omega
  · have := h.cap
    rcases hkg with ⟨rfl, rfl⟩ | ⟨rfl, rfl⟩
    · show charge md c + charge md (a .T2) ≤ cs
      omega
    · show charge md (a .T1) + charge md c ≤ cs
      omega

/-- `_ARC_evict_L1_data_no_ghost` -/
theorem evictNoGhost (h : Abs cs md a s) {c : Contents} {x : ObjId × Nat} (hc : a .T1 = c ++ [x]) :
    ∃ s', evictNoGhost s = .ok s' ∧ Abs cs md (Adaptive.put a .T1 c) s' ∧ s'.vtime = s.vtime ∧ s'.base.nReq = s.base.nReq ∧ s'.base.adm = s.base.adm ∧
      s'.inB1 = s.inB1 ∧ s'.inB2 = s.inB2 ∧ s'.p = s.p := by
  obtain ⟨o, h1, h2, h3, h4, h5, h6⟩ := h.tail hc
  have hx : x ∈ a .T1 := by rw [hc]; simp
  have hwo : Lists.without x.1 (a .T1) = c := by rw [hc]; exact without_last (by rw [← hc]; exact h.rep.nd .T1)
  have hch := without_charge (md := md) (h.rep.nd .T1) hx
  have hlen := without_length (h.rep.nd .T1) hx
  rw [hwo] at hch hlen
  obtain ⟨q', z', k1, k2⟩ := takeOff_spec h.qs h.mdz (h.rep.nd .T1) hx h2 h3 h6
  rw [hwo] at k2
  refine ⟨{ s with q := q', sz := z', base := { s.base with occ := s.base.occ - (((o.size + s.base.objMd) % u32 : Nat) : Int), nObj := s.base.nObj - 1 }.del x.1 },
    ?_, ⟨?_, h.csz, h.mdz, ?_, k2, ?_, ?_, ?_⟩, rfl, rfl, rfl, rfl, rfl, rfl⟩
  · rw [ARC.evictNoGhost, h1, Res.bind_ok, k1, Res.bind_ok, h2]
    simp only [Base.evictBase, Base.removeObjBase, h5, Res.bind_ok]
  · have := h.rep.del hx (rfl : (s.base.del x.1).tbl = _)
    rw [hwo] at this
    exact this.congr rfl
  · intro o' ho'; exact h.small o' (List.mem_of_mem_eraseP ho')
  · show s.base.occ - _ = ((charge md c + charge md (a .T2) : Nat) : Int)
    rw [h.mdz, Nat.mod_eq_of_lt h6, h.occ, h3]; omega
  · show s.base.nObj - 1 = ((c.length + (a .T2).length : Nat) : Int)
    rw [h.nObj]; omega
  · show charge md c + charge md (a .T2) ≤ cs
    have := h.cap
    omega

/-- `_ARC_evict_L1_ghost`, `_ARC_evict_L2_ghost` -/
theorem evictGhost (h : Abs cs md a s) {k : Lst} (hk : ghost k = true) {c : Contents} {x : ObjId × Nat} (hc : a k = c ++ [x]) :
    ∃ s', evictGhost s k = .ok s' ∧ Abs cs md (Adaptive.put a k c) s' ∧ s'.vtime = s.vtime ∧ s'.base.nReq = s.base.nReq ∧ s'.base.adm = s.base.adm ∧
      s'.inB1 = s.inB1 ∧ s'.inB2 = s.inB2 ∧ s'.p = s.p := by
  obtain ⟨o, h1, h2, h3, h4, h5, h6⟩ := h.tail hc
  have hx : x ∈ a k := by rw [hc]; simp
  have hwo : Lists.without x.1 (a k) = c := by rw [hc]; exact without_last (by rw [← hc]; exact h.rep.nd k)
  obtain ⟨q', z', k1, k2⟩ := h.dropGhost hk hx h2 h3 h6
  refine ⟨{ s with q := q', sz := z', base := s.base.del x.1 }, ?_, ?_, rfl, rfl, rfl, rfl, rfl, rfl⟩
  · rw [ARC.evictGhost, h1, Res.bind_ok, k1, Res.bind_ok, h2]
  · have e : drop a k x = Adaptive.put a k c := by
      show Adaptive.put a k (Lists.without x.1 (a k)) = _
      rw [hwo]
    rw [← e]; exact k2

theorem replaceT1_iff (h : Abs cs md a s) :
    replaceT1 s = true ↔ FromT1 md (fun n => R.gt (n : Int) s.p) (fun n => R.eq (n : Int) s.p) s.inB2 a := by
  simp only [replaceT1, FromT1, h.qs.z, bytes_eq_charge, Bool.or_eq_true, Bool.and_eq_true, decide_eq_true_eq]
  constructor
  · rintro (⟨h1, h2⟩ | h1)
    · exact Or.inl ⟨by omega, h2⟩
    · exact Or.inr (by omega)
  · rintro (⟨h1, h2⟩ | h1)
    · exact Or.inl ⟨by omega, h2⟩
    · exact Or.inr (by omega)

/-- `_ARC_replace` -/
theorem replace (h : Abs cs md a s) (hpos : 0 < charge md (a .T1) + charge md (a .T2)) :
    ∃ s' a' x, replace s = .ok s' ∧ (if replaceT1 s then (s.q .T1).getLast? else (s.q .T2).getLast?) = some x.1 ∧ Abs cs md a' s' ∧
      Replaces md (fun n => R.gt (n : Int) s.p) (fun n => R.eq (n : Int) s.p) s.inB2 a x a' ∧
      s'.vtime = s.vtime ∧ s'.base.nReq = s.base.nReq ∧ s'.base.adm = s.base.adm ∧ s'.inB1 = s.inB1 ∧ s'.inB2 = s.inB2 ∧ s'.p = s.p := by
  have hlast : ∀ (k : Lst) c (x : ObjId × Nat), a k = c ++ [x] → (s.q k).getLast? = some x.1 := by
    intro k c x hc; rw [h.qs.q, hc]; simp [Contents.ids]
  cases hr : replaceT1 s with
  | true =>
    have hf := h.replaceT1_iff.1 hr
    have hp1 : 0 < charge md (a .T1) := by
      rcases hf with ⟨h1, _⟩ | h1
      · rw [bytes_eq_charge] at h1; exact h1
      · rw [bytes_eq_charge] at h1; omega
    obtain ⟨c, x, hc⟩ := last_of_pos hp1
    obtain ⟨s', h1, h2, h3⟩ := h.demote (Or.inl ⟨rfl, rfl⟩) hc
    exact ⟨s', _, x, by rw [ARC.replace, hr, if_pos rfl, h1], by rw [if_pos rfl]; exact hlast _ _ _ hc, h2, Or.inl ⟨hf, c, hc, rfl⟩, h3⟩
  | false =>
    have hf : ¬ FromT1 md (fun n => R.gt (n : Int) s.p) (fun n => R.eq (n : Int) s.p) s.inB2 a := by
      rw [← h.replaceT1_iff, hr]; simp
    have hp2 : 0 < charge md (a .T2) := by
      have : ¬ bytes md (a .T2) = 0 := fun e => hf (Or.inr e)
      rw [bytes_eq_charge] at this; omega
    obtain ⟨c, x, hc⟩ := last_of_pos hp2
    obtain ⟨s', h1, h2, h3⟩ := h.demote (Or.inr ⟨rfl, rfl⟩) hc
    exact ⟨s', _, x, by rw [ARC.replace, hr, if_neg (by simp), h1], by rw [if_neg (by simp)]; exact hlast _ _ _ hc, h2, Or.inr ⟨hf, c, hc, rfl⟩, h3⟩

end Abs

/-- one eviction, as specified -/
def Evicts (cs md size : Nat) (R : Arith) (p : R.P) (inB2 after : Bool) (a : Lists) (x : ObjId × Nat) (a' : Lists) : Prop :=
  if after = true then Replaces md (fun n => R.gt (n : Int) p) (fun n => R.eq (n : Int) p) inB2 a x a'
  else MissEvicts cs md size (fun n => R.gt (n : Int) p) (fun n => R.eq (n : Int) p) inB2 a x a'

/-- `ARC_evict` -/
theorem Abs.evict (h : Abs cs md a s) (r : Req) (hsz : r.size + md ≤ cs) (hpos : 0 < charge md (a .T1) + charge md (a .T2)) :
    ∃ s' a' x, evict s r = .ok s' ∧ toEvict s r = some x.1 ∧ Abs cs md a' s' ∧
      Evicts cs md r.size R s.p s.inB2 (afterGhostHit s) a x a' ∧
      s'.vtime = s.vtime ∧ s'.base.nReq = s.base.nReq ∧ s'.base.adm = s.base.adm ∧ s'.inB1 = s.inB1 ∧ s'.inB2 = s.inB2 ∧ s'.p = s.p := by
  cases hg : afterGhostHit s with
  | true =>
    obtain ⟨s', a', x, h1, h2, h3, h4, h5⟩ := h.replace hpos
    refine ⟨s', a', x, ?_, ?_, h3, ?_, h5⟩
    · rw [ARC.evict, hg, if_pos rfl, h1]
    · rw [toEvict, hg, if_pos rfl]; exact h2
    · rw [Evicts, if_pos rfl]; exact h4
  | false =>
    rw [ARC.evict, toEvict, hg]
    simp only [Bool.false_eq_true, if_false]
    simp only [evictMiss, Evicts, MissEvicts, Bool.false_eq_true, if_false, bytes_eq_charge]
    have e1 : (s.sz .T1 + s.sz .B1 + (r.size + s.base.objMd : Nat) > (s.base.cacheSize : Int)) ↔
        charge md (a .T1) + charge md (a .B1) + (r.size + md) > cs := by
      rw [h.qs.z, h.qs.z, h.csz, h.mdz]; omega
    have e2 : s.sz .B1 > 0 ↔ 0 < charge md (a .B1) := by rw [h.qs.z]; omega
    have e3 : (s.sz .T1 + s.sz .B1 + s.sz .T2 + s.sz .B2 ≥ (s.base.cacheSize * 2 : Nat) ∧ s.sz .B2 > 0) ↔
        2 * cs ≤ charge md (a .T1) + charge md (a .B1) + charge md (a .T2) + charge md (a .B2) ∧ 0 < charge md (a .B2) := by
      simp only [h.qs.z, h.csz]; omega
    simp only [e1, e2, e3]
    -- forgetting a ghost before REPLACE
    have forget : ∀ g, ghost g = true → 0 < charge md (a g) → ∃ s' a' x, (ARC.evictGhost s g >>= fun s1 => ARC.replace s1) = .ok s' ∧
        (if replaceT1 s then (s.q .T1).getLast? else (s.q .T2).getLast?) = some x.1 ∧ Abs cs md a' s' ∧
        (∃ y a1, Forgets g a y a1 ∧ Replaces md (fun n => R.gt (n : Int) s.p) (fun n => R.eq (n : Int) s.p) s.inB2 a1 x a') ∧
        s'.vtime = s.vtime ∧ s'.base.nReq = s.base.nReq ∧ s'.base.adm = s.base.adm ∧ s'.inB1 = s.inB1 ∧ s'.inB2 = s.inB2 ∧ s'.p = s.p := by
      intro g hgg hgp
      obtain ⟨c, y, hc⟩ := last_of_pos hgp
      obtain ⟨s1, f1, f2, f3, f4, f5, f6, f7, f8⟩ := h.evictGhost hgg hc
      have t1 : Adaptive.put a g c .T1 = a .T1 := by cases g <;> first | rfl | simp [ghost] at hgg
      have t2 : Adaptive.put a g c .T2 = a .T2 := by cases g <;> first | rfl | simp [ghost] at hgg
      obtain ⟨s', a', x, h1, h2, h3, h4, h5, h6, h7, h8, h9, h10⟩ := f2.replace (by rw [t1, t2]; exact hpos)
      have er : replaceT1 s1 = replaceT1 s := by
        simp only [replaceT1, f2.qs.z, h.qs.z, t1, t2, f7, f8]
      refine ⟨s', a', x, by rw [f1, Res.bind_ok, h1], ?_, h3, ⟨y, _, ⟨c, hc, rfl⟩, ?_⟩, by rw [h5, f3], by rw [h6, f4], by rw [h7, f5], by rw [h8, f6], by rw [h9, f7], by rw [h10, f8]⟩
      · rw [er, f2.qs.q, f2.qs.q, t1, t2] at h2
        rw [h.qs.q, h.qs.q]; exact h2
      · rw [f7, f8] at h4; exact h4
    by_cases c1 : charge md (a .T1) + charge md (a .B1) + (r.size + md) > cs
    · simp only [c1, if_true]
      by_cases c2 : 0 < charge md (a .B1)
      · simp only [c2, if_true]
        exact forget .B1 rfl c2
      · simp only [c2, if_false]
        have hp1 : 0 < charge md (a .T1) := by omega
        obtain ⟨c, x, hc⟩ := last_of_pos hp1
        obtain ⟨s', h1, h2, h3⟩ := h.evictNoGhost hc
        exact ⟨s', _, x, h1, by rw [h.qs.q, hc]; simp [Contents.ids], h2, ⟨c, hc, rfl⟩, h3⟩
    · simp only [c1, if_false]
      by_cases c2 : 2 * cs ≤ charge md (a .T1) + charge md (a .B1) + charge md (a .T2) + charge md (a .B2) ∧ 0 < charge md (a .B2)
      · simp only [c2, and_self, if_true]
        exact forget .B2 rfl c2.2
      · simp only [c2, if_false, Res.bind_ok]
        obtain ⟨s', a', x, h1, h2, h3, h4, h5⟩ := h.replace hpos
        exact ⟨s', a', x, h1, h2, h3, h4, h5⟩

/-- `ARC_insert` -/
theorem Abs.insert (h : Abs cs md a s) (r : Req) (hn : s.base.lookup r.id = none) (hfit : charge md (a .T1) + charge md (a .T2) + r.size + md ≤ cs)
    (hsz : r.size + md < u32) :
    ∃ s', insert s r = .ok s' ∧ Abs cs md (push a (if afterGhostHit s then .T2 else .T1) (r.id, r.size)) s' ∧ s'.base.nReq = s.base.nReq ∧
      s'.base.adm = s.base.adm ∧ s'.p = s.p ∧ s'.inB1 = (if afterGhostHit s then false else s.inB1) ∧ s'.inB2 = (if afterGhostHit s then false else s.inB2) := by
  have hmod : r.size % u32 = r.size := Nat.mod_eq_of_lt (by omega)
  have hsm : ∀ k, ∀ o ∈ (s.base.insertBase k r).tbl, o.size + md < u32 := by
    intro k o ho
    rcases List.mem_cons.1 ho with rfl | ho
    · simp only [Obj.ofReq, hmod]; exact hsz
    · exact h.small o ho
  have hcap := h.cap
  cases hg : afterGhostHit s with
  | true =>
    obtain ⟨q', z', h1, h2⟩ := putOn_spec (s := { s with base := s.base.insertBase .T2 r, inB1 := false, inB2 := false, vtime := -1 }) h.qs (k := .T2)
      (x := (r.id, r.size)) (h.rep.notMem hn .T2) (r.size + s.base.objMd : Nat) (by rw [h.mdz])
    refine ⟨{ s with base := s.base.insertBase .T2 r, inB1 := false, inB2 := false, vtime := -1, q := q', sz := z' }, by rw [ARC.insert, hg, if_pos rfl, h1], ⟨?_, h.csz, h.mdz, hsm .T2, h2, ?_, ?_, ?_⟩, rfl, rfl, rfl, rfl, rfl⟩
    · have := h.rep.insert .T2 r hn (rfl : (s.base.insertBase .T2 r).tbl = _) (List.Perm.refl _)
      rw [hmod] at this
      exact this.congr rfl
    · show s.base.occ + (((r.size % u32 : Nat) : Int) + (s.base.objMd : Int)) = ((charge md (a .T1) + charge md ((r.id, r.size) :: a .T2) : Nat) : Int)
      rw [hmod, h.mdz, h.occ]; simp only [charge]; push_cast; omega
    · show s.base.nObj + 1 = (((a .T1).length + ((r.id, r.size) :: a .T2).length : Nat) : Int)
      rw [h.nObj]; simp only [List.length_cons]; push_cast; omega
    · show charge md (a .T1) + charge md ((r.id, r.size) :: a .T2) ≤ cs
      simp only [charge]; omega
  | false =>
    obtain ⟨q', z', h1, h2⟩ := putOn_spec (s := { s with base := s.base.insertBase .T1 r }) h.qs (k := .T1)
      (x := (r.id, r.size)) (h.rep.notMem hn .T1) (r.size + s.base.objMd : Nat) (by rw [h.mdz])
    refine ⟨{ s with base := s.base.insertBase .T1 r, q := q', sz := z' }, by rw [ARC.insert, hg, if_neg (by simp), h1], ⟨?_, h.csz, h.mdz, hsm .T1, h2, ?_, ?_, ?_⟩, rfl, rfl, rfl, rfl, rfl⟩
    · have := h.rep.insert .T1 r hn (rfl : (s.base.insertBase .T1 r).tbl = _) (List.Perm.refl _)
      rw [hmod] at this
      exact this.congr rfl
    · show s.base.occ + (((r.size % u32 : Nat) : Int) + (s.base.objMd : Int)) = ((charge md ((r.id, r.size) :: a .T1) + charge md (a .T2) : Nat) : Int)
      rw [hmod, h.mdz, h.occ]; simp only [charge]; push_cast; omega
    · show s.base.nObj + 1 = ((((r.id, r.size) :: a .T1).length + (a .T2).length : Nat) : Int)
      rw [h.nObj]; simp only [List.length_cons]; push_cast; omega
    · show charge md ((r.id, r.size) :: a .T1) + charge md (a .T2) ≤ cs
      simp only [charge]; omega

theorem orderOf_of {b : Base Lst} : ∀ {c : Contents}, (∀ x ∈ c, ∃ o, b.lookup x.1 = some o ∧ o.size = x.2) → orderOf b c.ids = c
  | [], _ => rfl
  | x :: c, h => by
    obtain ⟨o, ho, hs⟩ := h x List.mem_cons_self
    rw [show Contents.ids (x :: c) = x.1 :: Contents.ids c from rfl, orderOf_cons ho, orderOf_of (fun y hy => h y (List.mem_cons_of_mem _ hy)), hs]

/-- The four lists, read off the queues and the hash table. -/
def lists (s : State R) : Lists := fun k => orderOf s.base (s.q k)

/-- The cached objects: those in the hash table that are not ghosts. -/
def cached (s : State R) : Contents := onLists (fun k : Lst => k) (fun k => !ghost k) s.base

theorem Abs.lists (h : Abs cs md a s) : lists s = a := by
  funext k
  rw [ARC.lists, h.qs.q]
  exact orderOf_of (fun x hx => by obtain ⟨o, h1, h2, _⟩ := h.obj hx; exact ⟨o, h1, h2⟩)

theorem Abs.disjoint (h : Abs cs md a s) {j k : Lst} (hjk : j ≠ k) : (a j ++ a k).ids.Nodup := by
  rw [Contents.ids, List.map_append]
  refine List.nodup_append.2 ⟨h.rep.nd j, h.rep.nd k, ?_⟩
  intro x hx y hy e
  subst e
  obtain ⟨u, hu, hue⟩ := List.mem_map.1 hx
  obtain ⟨v, hv, hve⟩ := List.mem_map.1 hy
  exact hjk (h.rep.unique hu hv (hue.trans hve.symm)).1

theorem Abs.cached_perm (h : Abs cs md a s) : (cached s).Perm (a .T1 ++ a .T2) := by
  refine h.rep.onLists_perm _ _ (Lists.nodup_of_ids (h.disjoint (by decide))) ?_
  intro x
  rw [List.mem_append]
  constructor
  · rintro (hx | hx)
    · exact ⟨.T1, rfl, hx⟩
    · exact ⟨.T2, rfl, hx⟩
  · rintro ⟨k, hk, hx⟩
    cases k with
    | T1 => exact Or.inl hx
    | T2 => exact Or.inr hx
    | B1 => simp [ghost] at hk
    | B2 => simp [ghost] at hk

theorem Abs.mem_cached (h : Abs cs md a s) {x : ObjId × Nat} : x ∈ cached s ↔ x ∈ a .T1 ∨ x ∈ a .T2 := by
  rw [h.cached_perm.mem_iff, List.mem_append]

/-- what reachable states satisfy -/
structure Inv (cs md : Nat) (s : State R) : Prop where
  abs : Abs cs md (lists s) s
  vt : s.vtime ≤ s.base.nReq

theorem Inv.mk' (h : Abs cs md a s) (hv : s.vtime ≤ s.base.nReq) : Inv cs md s := ⟨by rw [h.lists]; exact h, hv⟩

theorem inv_init (cs md : Nat) (adm : Adm) : Inv cs md (init cs md adm : State R) := by
  refine Inv.mk' (a := fun _ => []) ⟨⟨by simp [init, Base.init], ?_, by simp [Contents.ids]⟩, rfl, rfl, by simp [init, Base.init], ⟨fun _ => rfl, fun _ => rfl⟩, rfl, rfl, by simp [charge]⟩ (by simp [init, Base.init])
  intro i x; simp [init, Base.init, Base.lookup]

theorem charge_two (h : Abs cs md a s) : charge md (cached s) = charge md (a .T1) + charge md (a .T2) := by
  rw [charge_perm h.cached_perm, charge_append]

/-! ### What an eviction does to the lists -/

theorem Demotes.facts {k j : Lst} (hkj : (k = .T1 ∧ j = .B1) ∨ (k = .T2 ∧ j = .B2)) {a a' : Lists} {x : ObjId × Nat} (h : Demotes k j a x a') :
    (a .T1 ++ a .T2).Perm (x :: (a' .T1 ++ a' .T2)) ∧ ∀ id, (∀ i, id ∉ (a i).ids) → ∀ i, id ∉ (a' i).ids := by
  obtain ⟨c, hc, rfl⟩ := h
  have hx : ∀ id, (∀ i, id ∉ (a i).ids) → id ≠ x.1 ∧ id ∉ c.ids := by
    intro id hid
    have := hid k
    rw [hc] at this
    simp only [Contents.ids, List.map_append, List.mem_append, List.map_cons, List.map_nil, List.mem_singleton, not_or] at this
    exact ⟨this.2, this.1⟩
  rcases hkj with ⟨rfl, rfl⟩ | ⟨rfl, rfl⟩
  · refine ⟨?_, fun id hid i => ?_⟩
    · show (a .T1 ++ a .T2).Perm (x :: (c ++ a .T2))
      rw [hc, List.append_assoc]
      exact List.perm_middle
    · obtain ⟨h1, h2⟩ := hx id hid
      cases i with
      | T1 => exact h2
      | T2 => exact hid .T2
      | B2 => exact hid .B2
      | B1 => exact List.not_mem_cons_of_ne_of_not_mem h1 (hid .B1)
  · refine ⟨?_, fun id hid i => ?_⟩
    · show (a .T1 ++ a .T2).Perm (x :: (a .T1 ++ c))
      rw [hc, ← List.append_assoc]
      exact List.perm_append_singleton _ _
    · obtain ⟨h1, h2⟩ := hx id hid
      cases i with
      | T1 => exact hid .T1
      | T2 => exact h2
      | B1 => exact hid .B1
      | B2 => exact List.not_mem_cons_of_ne_of_not_mem h1 (hid .B2)

theorem Replaces.facts {gt eq : Nat → Bool} {b : Bool} {a a' : Lists} {x : ObjId × Nat} (h : Replaces md gt eq b a x a') :
    (a .T1 ++ a .T2).Perm (x :: (a' .T1 ++ a' .T2)) ∧ ∀ id, (∀ i, id ∉ (a i).ids) → ∀ i, id ∉ (a' i).ids := by
  rcases h with ⟨_, h⟩ | ⟨_, h⟩
  · exact Demotes.facts (Or.inl ⟨rfl, rfl⟩) h
  · exact Demotes.facts (Or.inr ⟨rfl, rfl⟩) h

theorem Forgets.absent {k : Lst} {a a' : Lists} {x : ObjId × Nat} (h : Forgets k a x a') :
    ∀ id, (∀ i, id ∉ (a i).ids) → ∀ i, id ∉ (a' i).ids := by
  obtain ⟨c, hc, rfl⟩ := h
  intro id hid i
  by_cases e : i = k
  · subst e
    have := hid i
    rw [hc] at this
    simp only [Contents.ids, List.map_append, List.mem_append, not_or] at this
    show id ∉ (Lists.put a i c i).ids
    rw [put_self]; exact this.1
  · show id ∉ (Lists.put a k c i).ids
    rw [put_ne _ e]; exact hid i

theorem Evicts.facts {size : Nat} {p : R.P} {b g : Bool} {a a' : Lists} {x : ObjId × Nat} (h : Evicts cs md size R p b g a x a') :
    (a .T1 ++ a .T2).Perm (x :: (a' .T1 ++ a' .T2)) ∧ ∀ id, (∀ i, id ∉ (a i).ids) → ∀ i, id ∉ (a' i).ids := by
  have forget : ∀ k, ghost k = true → (∃ y a1, Forgets k a y a1 ∧ Replaces md (fun n => R.gt (n : Int) p) (fun n => R.eq (n : Int) p) b a1 x a') →
      (a .T1 ++ a .T2).Perm (x :: (a' .T1 ++ a' .T2)) ∧ ∀ id, (∀ i, id ∉ (a i).ids) → ∀ i, id ∉ (a' i).ids := by
    rintro k hk ⟨y, a1, h1, h2⟩
    have h3 := Replaces.facts h2
    refine ⟨?_, fun id hid => h3.2 id (Forgets.absent h1 id hid)⟩
    obtain ⟨c, hc, rfl⟩ := h1
    have h4 := h3.1
    have t1 : Adaptive.put a k c .T1 = a .T1 := by cases k <;> first | rfl | simp [ghost] at hk
    have t2 : Adaptive.put a k c .T2 = a .T2 := by cases k <;> first | rfl | simp [ghost] at hk
    rw [t1, t2] at h4
    exact h4
  unfold Evicts at h
  split at h
  · exact Replaces.facts h
  · unfold MissEvicts at h
    split at h
    · split at h
      · exact forget .B1 rfl h
      · refine ⟨?_, Forgets.absent h⟩
        obtain ⟨c, hc, rfl⟩ := h
        show (a .T1 ++ a .T2).Perm (x :: (c ++ a .T2))
        rw [hc, List.append_assoc]
        exact List.perm_middle
    · split at h
      · exact forget .B2 rfl h
      · exact Replaces.facts h

/-- Eviction from a cache that holds any bytes. -/
theorem evict_spec (h : Inv cs md s) (r : Req) (hsz : r.size + md ≤ cs) (hpos : 0 < charge md (cached s)) :
    ∃ s' x, evict s r = .ok s' ∧ toEvict s r = some x.1 ∧ Inv cs md s' ∧
      Evicts cs md r.size R s.p s.inB2 (afterGhostHit s) (lists s) x (lists s') ∧ (cached s).Perm (x :: cached s') ∧
      (s.base.lookup r.id = none → s'.base.lookup r.id = none) ∧
      s'.p = s.p ∧ s'.inB1 = s.inB1 ∧ s'.inB2 = s.inB2 ∧ s'.vtime = s.vtime ∧ s'.base.nReq = s.base.nReq ∧ s'.base.adm = s.base.adm := by
  rw [charge_two h.abs] at hpos
  obtain ⟨s', a', x, h1, h2, h3, h4, h5, h6, h7, h8, h9, h10⟩ := h.abs.evict r hsz hpos
  obtain ⟨f1, f2⟩ := Evicts.facts h4
  refine ⟨s', x, h1, h2, Inv.mk' h3 (by rw [h5, h6]; exact h.vt), by rw [h3.lists]; exact h4, ?_, ?_, h10, h8, h9, h5, h6, h7⟩
  · exact h.abs.cached_perm.trans (f1.trans ((h3.cached_perm.symm).cons x))
  · intro hn
    exact h3.rep.lookup_none (f2 _ (fun i => h.abs.rep.notMem hn i))

/-! ### Requests -/

/-- a hit -/
theorem find_hit (h : Inv cs md s) {k : Lst} (hk : ghost k = false) {x : ObjId × Nat} (hx : x ∈ lists s k) (r : Req) (hr : r.id = x.1) :
    ∃ s', find s r true = .ok (true, s') ∧ Inv cs md s' ∧ lists s' = hit (lists s) k x ∧ (cached s').Perm (cached s) ∧
      s'.p = s.p ∧ s'.inB1 = false ∧ s'.inB2 = false ∧ s'.base.adm = s.base.adm := by
  obtain ⟨o, h1, h2, h3, h4, h5⟩ := h.abs.obj hx
  have hb : s.base.findBase r true = (some (Verif.touch r o), s.base.modify r.id (Verif.touch r)) := by
    rw [← hr] at h1; exact findBase_hit h1
  have ha := (h.abs.touch r).frame s.base.nReq s.base.adm s.p false false s.vtime
  obtain ⟨s', k1, k2, k3, k4, k5, k6, k7, k8⟩ := ha.dataHit (o := Verif.touch r o) hk hx h4 h2 h3
  refine ⟨s', ?_, Inv.mk' k2 (by rw [k3, k4]; exact h.vt), k2.lists, ?_, k8, k6, k7, k5⟩
  · rw [find, hb]
    have hm : (Verif.touch r o).mt = k := h3
    simp only [Bool.true_eq_false, if_false, hm, hk, Bool.false_eq_true]
    exact (congrArg (fun m => m >>= fun s' => Except.ok (true, s')) k1).trans rfl
  · refine k2.cached_perm.trans (List.Perm.trans ?_ h.abs.cached_perm.symm)
    have hw := without_perm (h.abs.rep.nd k) hx
    cases k with
    | T1 =>
      show (Lists.without x.1 (lists s .T1) ++ x :: lists s .T2).Perm _
      exact List.perm_middle.trans (hw.symm.append_right _)
    | T2 =>
      show (lists s .T1 ++ x :: Lists.without x.1 (lists s .T2)).Perm _
      exact hw.symm.append_left _
    | B1 => simp [ghost] at hk
    | B2 => simp [ghost] at hk

/-- a ghost hit -/
theorem find_ghost (h : Inv cs md s) {k : Lst} (hk : ghost k = true) {x : ObjId × Nat} (hx : x ∈ lists s k) (r : Req) (hr : r.id = x.1) :
    ∃ s', find s r true = .ok (false, s') ∧ Inv cs md s' ∧ lists s' = drop (lists s) k x ∧ (cached s').Perm (cached s) ∧
      afterGhostHit s' = true ∧ s'.inB1 = decide (k = .B1) ∧ s'.inB2 = decide (k = .B2) ∧ s'.base.adm = s.base.adm ∧ s'.base.lookup r.id = none ∧
      s'.p = (if k = .B1 then R.up s.p (charge md (lists s .B2) : Nat) (charge md (lists s .B1) : Nat) cs
        else R.down s.p (charge md (lists s .B1) : Nat) (charge md (lists s .B2) : Nat)) := by
  obtain ⟨o, h1, h2, h3, h4, h5⟩ := h.abs.obj hx
  have hb : s.base.findBase r true = (some (Verif.touch r o), s.base.modify r.id (Verif.touch r)) := by
    rw [← hr] at h1; exact findBase_hit h1
  have ha := (h.abs.touch r).frame s.base.nReq s.base.adm s.p false false s.vtime
  obtain ⟨s', k1, k2, k3, k4, k5, k6, k7, k8⟩ := ha.ghostHit (o := Verif.touch r o) hk hx h4 h2 h3
  have k6' : s'.inB1 = decide (k = .B1) := by rw [k6]; simp
  have k7' : s'.inB2 = decide (k = .B2) := by rw [k7]; simp
  refine ⟨s', ?_, Inv.mk' k2 (by rw [k3, k4]; exact Int.le_refl _), k2.lists, ?_, ?_, k6', k7', k5, ?_, k8⟩
  · rw [find, hb]
    have hm : (Verif.touch r o).mt = k := h3
    simp only [Bool.true_eq_false, if_false, hm, hk, if_true]
    exact (congrArg (fun m => m >>= fun s' => Except.ok (false, s')) k1).trans rfl
  · refine k2.cached_perm.trans (List.Perm.trans ?_ h.abs.cached_perm.symm)
    cases k with
    | T1 => simp [ghost] at hk
    | T2 => simp [ghost] at hk
    | B1 => exact List.Perm.refl _
    | B2 => exact List.Perm.refl _
  · rw [afterGhostHit, k3, k4, k6', k7']
    cases k <;> simp_all [ghost]
  · refine k2.rep.lookup_none (fun j => ?_)
    rw [hr]; exact h.abs.notMem_without hx j

/-- a request for an object on no list -/
theorem find_none (h : Inv cs md s) {r : Req} (hn : ∀ k, r.id ∉ (lists s k).ids) : find s r true = .ok (false, s) ∧ s.base.lookup r.id = none := by
  have hl := h.abs.rep.lookup_none hn
  refine ⟨?_, hl⟩
  rw [find, findBase_miss hl]
  rfl

theorem Inv.frame (h : Inv cs md s) (ad : Adm) : Inv cs md { s with base := { s.base with adm := ad } } :=
  Inv.mk' (h.abs.frame s.base.nReq ad s.p s.inB1 s.inB2 s.vtime) h.vt

theorem Inv.bump (h : Inv cs md s) : Inv cs md ((algo R).bump s) := by
  refine Inv.mk' (h.abs.frame (s.base.nReq + 1) s.base.adm s.p s.inB1 s.inB2 s.vtime) ?_
  have := h.vt
  show s.vtime ≤ ((s.base.nReq + 1 : Nat) : Int)
  omega

theorem not_cached (h : Inv cs md s) {id : ObjId} (hn : id ∉ (cached s).ids) :
    (∃ k x, ghost k = true ∧ x ∈ lists s k ∧ id = x.1) ∨ ∀ k, id ∉ (lists s k).ids := by
  cases hl : s.base.lookup id with
  | none => exact Or.inr (h.abs.rep.notMem hl)
  | some o =>
    have hm := h.abs.rep.mem_of hl
    refine Or.inl ⟨o.mt, _, ?_, hm, rfl⟩
    cases hg : ghost o.mt with
    | true => rfl
    | false =>
      exfalso
      apply hn
      refine List.mem_map.2 ⟨(id, o.size), h.abs.mem_cached.2 ?_, rfl⟩
      revert hm hg
      cases o.mt <;> simp [ghost] <;> exact fun h => by tauto

theorem is_cached (h : Inv cs md s) {id : ObjId} (hin : id ∈ (cached s).ids) : ∃ k x, ghost k = false ∧ x ∈ lists s k ∧ id = x.1 := by
  obtain ⟨x, hx, rfl⟩ := List.mem_map.1 hin
  rcases h.abs.mem_cached.1 hx with hx | hx
  · exact ⟨.T1, x, rfl, hx, rfl⟩
  · exact ⟨.T2, x, rfl, hx, rfl⟩

theorem must (h : Inv cs md s) (r : Req) : (algo R).mustEvict s r = decide (charge md (cached s) + r.size + md > cs) := by
  show decide (s.base.occ + r.size + s.base.objMd > (s.base.cacheSize : Int)) = _
  rw [h.abs.mdz, h.abs.csz, h.abs.occ, charge_two h.abs]
  congr 1
  rw [eq_iff_iff]; omega

theorem canInsert_eq (s : State R) (r : Req) : canInsert s r = (admitsBase s.base r, { s with base := { s.base with adm := (s.base.adm.admit r).2 } }) := by
  rw [canInsert, canInsertDefault_eq]

/-- the calls considered: `get` and `find` with update -/
abbrev calls : Perms := { peek := false, rem := false, ev := false, ins := false }

theorem lookup_notMem (h : Inv cs md s) {id : ObjId} (hl : s.base.lookup id = none) : id ∉ (cached s).ids := by
  intro hin
  obtain ⟨k, x, _, hx, rfl⟩ := is_cached h hin
  exact h.abs.rep.notMem hl k (List.mem_map_of_mem hx)

theorem insert_spec (h : Inv cs md s) (r : Req) (hn : s.base.lookup r.id = none) (hfit : charge md (cached s) + r.size + md ≤ cs) (hsz : r.size + md < u32) :
    ∃ s', insert s r = .ok s' ∧ Inv cs md s' ∧ lists s' = push (lists s) (if afterGhostHit s then .T2 else .T1) (r.id, r.size) ∧
      (cached s').Perm ((r.id, r.size) :: cached s) ∧ s'.p = s.p ∧ s'.base.adm = s.base.adm ∧
      s'.inB1 = (if afterGhostHit s then false else s.inB1) ∧ s'.inB2 = (if afterGhostHit s then false else s.inB2) := by
  rw [charge_two h.abs] at hfit
  obtain ⟨s', h1, h2, h3, h4, h5, h6, h7⟩ := h.abs.insert r hn hfit hsz
  refine ⟨s', h1, Inv.mk' h2 ?_, h2.lists, ?_, h5, h4, h6, h7⟩
  · rw [h3]
    have e : s'.vtime = (if afterGhostHit s then -1 else s.vtime) := by
      rw [insert] at h1
      cases hg : afterGhostHit s with
      | true =>
        rw [hg, if_pos rfl, putOn] at h1
        cases hq : qPrepend (s.q .T2) r.id with
        | error e => simp only [hq] at h1; cases h1
        | ok q' => simp only [hq, Res.bind_ok] at h1; cases h1; rfl
      | false =>
        rw [hg, if_neg (by simp), putOn] at h1
        cases hq : qPrepend (s.q .T1) r.id with
        | error e => simp only [hq] at h1; cases h1
        | ok q' => simp only [hq, Res.bind_ok] at h1; cases h1; rfl
    rw [e]
    have := h.vt
    split <;> omega
  · refine h2.cached_perm.trans (List.Perm.trans ?_ (h.abs.cached_perm.symm.cons _))
    cases afterGhostHit s with
    | true => exact List.perm_middle
    | false => exact List.Perm.refl _

theorem contract : Medium (algo R) cached (Inv cs md) (fun s r => r.size + md ≤ cs ∧ s.base.lookup r.id = none) (fun s => (cached s).length) cs md calls (Requests cs md) where
  csz := fun h => h.abs.csz
  mdz := fun h => h.abs.mdz
  nodup := fun h => h.abs.rep.onLists_nodup _
  occ := fun {s} h => by show s.base.occ = _; rw [h.abs.occ, charge_two h.abs]
  nObj := fun {s} h => by
    show s.base.nObj = _
    rw [h.abs.nObj, h.abs.cached_perm.length_eq, List.length_append]
  cap := fun {s} h => by
    show s.base.occ ≤ _
    rw [h.abs.occ]; exact_mod_cast h.abs.cap
  bump := fun {s} h => ⟨h.bump, rfl⟩
  findF := fun h => by simp at h
  findHit := fun {s} r h hin _ => by
    obtain ⟨k, x, h1, h2, h3⟩ := is_cached h hin
    obtain ⟨s', k1, k2, _, k4, _⟩ := find_hit h h1 h2 r h3
    exact ⟨s', k1, k2, k4.subperm⟩
  findMiss := fun {s} r h hn _ => by
    have key : ∀ {s1 : State R}, find s r true = .ok (false, s1) → Inv cs md s1 → (cached s1).Perm (cached s) → s1.base.lookup r.id = none →
        ∃ s1, (algo R).find s r true = .ok (false, s1) ∧ Inv cs md s1 ∧ (cached s1).Perm (cached s) ∧
          Inv cs md ((algo R).canInsert s1 r).2 ∧ (cached ((algo R).canInsert s1 r).2).Perm (cached s) ∧
          (((algo R).canInsert s1 r).1 = true → Requests cs md r → r.size + md ≤ cs ∧ ((algo R).canInsert s1 r).2.base.lookup r.id = none) := by
      intro s1 h1 h2 h3 h4
      refine ⟨s1, h1, h2, h3, ?_⟩
      show Inv cs md (canInsert s1 r).2 ∧ (cached (canInsert s1 r).2).Perm (cached s) ∧ ((canInsert s1 r).1 = true → _ → _ ∧ (canInsert s1 r).2.base.lookup r.id = none)
      rw [canInsert_eq]
      refine ⟨h2.frame _, h3, ?_⟩
      intro ha _
      simp only [admitsBase, Bool.and_eq_true, decide_eq_true_eq] at ha
      have := ha.2
      rw [h2.abs.mdz, h2.abs.csz] at this
      exact ⟨this, h4⟩
    rcases not_cached h hn with ⟨k, x, h1, h2, h3⟩ | h1
    · obtain ⟨s', k1, k2, _, k4, _, _, _, _, k5, _⟩ := find_ghost h h1 h2 r h3
      exact key k1 k2 k4 k5
    · obtain ⟨k1, k2⟩ := find_none h h1
      exact key k1 h (List.Perm.refl _) k2
  fuel := fun {s} _ => by
    show (cached s).length ≤ s.base.tbl.length
    rw [cached, onLists, List.length_map]; exact List.length_filter_le _ _
  evictLoop := fun {s} r h hok hr _ hme => by
    rw [must h, decide_eq_true_eq] at hme
    obtain ⟨s', x, e1, _, e2, _, e3, e4, _⟩ := evict_spec h r hr.1 (by have := hr.1; omega)
    refine ⟨s', e1, e2, ⟨hr.1, e4 hr.2⟩, (List.Sublist.subperm (List.sublist_cons_self _ _)).trans e3.symm.subperm, ?_⟩
    have := e3.length_eq
    simp only [List.length_cons] at this
    omega
  insert := fun {s} r h hok hr hn hme => by
    rw [must h, decide_eq_false_iff_not] at hme
    have hlt := hok hr.1
    obtain ⟨s', e1, e2, _, e3, _⟩ := insert_spec h r hr.2 (by omega) hlt
    refine ⟨s', e1, e2, ?_⟩
    rw [Nat.mod_eq_of_lt (by omega)]; exact e3.subperm
  userInsert := fun h => by cases h
  remove := fun h => by cases h
  evict := fun h => by cases h
  evictAtMostOne := fun {s s'} r h hok hr _ hme he => by
    rw [must h, decide_eq_true_eq] at hme
    obtain ⟨s'', x, e1, _, e2, _, e3, _⟩ := evict_spec h r hr.1 (by have := hr.1; omega)
    have : s'' = s' := by
      have he' : ARC.evict s r = .ok s' := he
      rw [e1] at he'; cases he'; rfl
    subst this
    exact ⟨[x], by simp, e3⟩
  hitPerm := fun {s s'} r h hf => by
    have hf' : find s r true = .ok (true, s') := hf
    by_cases hin : r.id ∈ (cached s).ids
    · obtain ⟨k, x, h1, h2, h3⟩ := is_cached h hin
      obtain ⟨s'', k1, k2, _, k4, _⟩ := find_hit h h1 h2 r h3
      rw [k1] at hf'; cases hf'; exact k4
    · rcases not_cached h hin with ⟨k, x, h1, h2, h3⟩ | h1
      · obtain ⟨s'', k1, _⟩ := find_ghost h h1 h2 r h3
        rw [k1] at hf'; cases hf'
      · rw [(find_none h h1).1] at hf'; cases hf'

/-- The eviction loop of a miss. -/
theorem loop_spec (r : Req) (hr : r.size + md ≤ cs) : ∀ (m : Nat) {s : State R}, Inv cs md s → (cached s).length ≤ m → s.base.lookup r.id = none →
    ∃ s' vs, (algo R).evictLoop r m s = .ok s' ∧ Inv cs md s' ∧ EvictsAll (Evicts cs md r.size R s.p s.inB2 (afterGhostHit s)) (lists s) vs (lists s') ∧
      (cached s).Perm (vs ++ cached s') ∧ charge md (cached s') + r.size + md ≤ cs ∧
      (∀ us v, vs = us ++ [v] → charge md (v :: cached s') + r.size + md > cs) ∧
      s'.base.lookup r.id = none ∧ s'.p = s.p ∧ s'.inB1 = s.inB1 ∧ s'.inB2 = s.inB2 ∧ afterGhostHit s' = afterGhostHit s ∧ s'.base.adm = s.base.adm := by
  have done : ∀ (m : Nat) {s : State R}, Inv cs md s → ¬ (charge md (cached s) + r.size + md > cs) → s.base.lookup r.id = none →
      ∃ s' vs, (algo R).evictLoop r m s = .ok s' ∧ Inv cs md s' ∧ EvictsAll (Evicts cs md r.size R s.p s.inB2 (afterGhostHit s)) (lists s) vs (lists s') ∧
      (cached s).Perm (vs ++ cached s') ∧ charge md (cached s') + r.size + md ≤ cs ∧
      (∀ us v, vs = us ++ [v] → charge md (v :: cached s') + r.size + md > cs) ∧
      s'.base.lookup r.id = none ∧ s'.p = s.p ∧ s'.inB1 = s.inB1 ∧ s'.inB2 = s.inB2 ∧ afterGhostHit s' = afterGhostHit s ∧ s'.base.adm = s.base.adm := by
    intro m s h hm hn
    refine ⟨s, [], ?_, h, .none _, List.Perm.refl _, by omega, by simp, hn, rfl, rfl, rfl, rfl, rfl⟩
    cases m <;> simp [Algo.evictLoop, must h, hm]
  intro m
  induction m with
  | zero =>
    intro s h hlen hn
    apply done 0 h _ hn
    have : cached s = [] := List.length_eq_zero_iff.1 (by omega)
    rw [this]; simp only [charge]; omega
  | succ m ih =>
    intro s h hlen hn
    by_cases hm : charge md (cached s) + r.size + md > cs
    · obtain ⟨s1, x, e1, _, e2, e3, e4, e5, e6, e7, e8, e9, e10, e11⟩ := evict_spec h r hr (by omega)
      have hl := e4.length_eq
      simp only [List.length_cons] at hl
      obtain ⟨s', vs, k1, k2, k3, k4, k5, k6, k7, k8, k9, k10, k11, k12⟩ := ih e2 (by omega) (e5 hn)
      have hg : afterGhostHit s1 = afterGhostHit s := by simp only [afterGhostHit, e7, e8, e9, e10]
      rw [hg, e6, e8] at k3
      refine ⟨s', x :: vs, ?_, k2, .one e3 k3, e4.trans (k4.cons x), k5, ?_, k7, by rw [k8, e6], by rw [k9, e7], by rw [k10, e8], by rw [k11, hg], by rw [k12, e11]⟩
      · rw [Algo.evictLoop, must h, decide_eq_true hm, if_pos rfl]
        show (evict s r >>= fun s' => (algo R).evictLoop r m s') = _
        rw [e1, Res.bind_ok, k1]
      · intro us v huv
        cases us with
        | nil =>
          simp only [List.nil_append, List.cons.injEq] at huv
          obtain ⟨rfl, rfl⟩ := huv
          have c1 := charge_perm (md := md) e4
          have c2 := charge_perm (md := md) k4
          simp only [List.nil_append] at c2
          simp only [charge] at c1 ⊢
          omega
        | cons u us =>
          simp only [List.cons_append, List.cons.injEq] at huv
          exact k6 us v huv.2
    · exact done (m + 1) h hm hn

/-- After `find` missed: admission, evictions, insertion. -/
theorem get_rest {s1 : State R} {r : Req} (h : Inv cs md s1) (hok : Requests cs md r) (hf : find ((algo R).bump s) r true = .ok (false, s1)) (hn : s1.base.lookup r.id = none) :
    (admitsBase s1.base r = false → (algo R).get s r = .ok (false, { s1 with base := { s1.base with adm := (s1.base.adm.admit r).2 } })) ∧
    (admitsBase s1.base r = true → ∃ s' vs a1 kept, (algo R).get s r = .ok (false, s') ∧ Inv cs md s' ∧
      EvictsAll (Evicts cs md r.size R s1.p s1.inB2 (afterGhostHit s1)) (lists s1) vs a1 ∧
      lists s' = push a1 (if afterGhostHit s1 then .T2 else .T1) (r.id, r.size) ∧
      (cached s1).Perm (vs ++ kept) ∧ kept.Perm (a1 .T1 ++ a1 .T2) ∧ (cached s').Perm ((r.id, r.size) :: kept) ∧
      charge md kept + r.size + md ≤ cs ∧ (∀ us v, vs = us ++ [v] → charge md (v :: kept) + r.size + md > cs) ∧
      s'.p = s1.p ∧ s'.base.adm = (s1.base.adm.admit r).2 ∧
      s'.inB1 = (if afterGhostHit s1 then false else s1.inB1) ∧ s'.inB2 = (if afterGhostHit s1 then false else s1.inB2)) := by
  have hc : (algo R).canInsert s1 r = (admitsBase s1.base r, { s1 with base := { s1.base with adm := (s1.base.adm.admit r).2 } }) := canInsert_eq s1 r
  constructor
  · intro ha
    rw [ha] at hc
    exact get_reject hf hc
  · intro ha
    rw [ha] at hc
    simp only [admitsBase, Bool.and_eq_true, decide_eq_true_eq] at ha
    have hcs : r.size + md ≤ cs := by have := ha.2; rw [h.abs.mdz, h.abs.csz] at this; exact this
    have h2 := h.frame (s1.base.adm.admit r).2
    obtain ⟨s3, vs, k1, k2, k3, k4, k5, k6, k7, k8, k9, k10, k11, k12⟩ := loop_spec r hcs ((algo R).fuel { s1 with base := { s1.base with adm := (s1.base.adm.admit r).2 } }) h2
      ((contract (R := R) (cs := cs) (md := md)).fuel h2) hn
    obtain ⟨s', e1, e2, e3, e4, e5, e6, e7, e8⟩ := insert_spec k2 r k7 k5 (hok hcs)
    rw [k11] at e3 e7 e8
    refine ⟨s', vs, lists s3, cached s3, get_accept hf hc k1 e1, e2, k3, e3, k4, k2.abs.cached_perm, e4, k5, k6, by rw [e5, k8], by rw [e6, k12], ?_, ?_⟩
    · rw [e7, k9]; rfl
    · rw [e8, k10]; rfl

/-- `remove` of an object that is not a ghost. -/
theorem remove_spec (h : Inv cs md s) (id : ObjId) (hg : id ∉ (lists s .B1).ids ∧ id ∉ (lists s .B2).ids) :
    ∃ s', remove s id = .ok (decide (id ∈ (cached s).ids), s') ∧ Inv cs md s' ∧ (cached s').Perm ((cached s).filter (fun x => x.1 ≠ id)) ∧
      lists s' = fun k => Adaptive.without id (lists s k) := by
  cases e : s.base.lookup id with
  | none =>
    have hn := lookup_notMem h e
    refine ⟨s, by rw [remove, e, decide_eq_false hn], h, by rw [filter_ids_eq hn], ?_⟩
    funext k
    exact (filter_ids_eq (h.abs.rep.notMem e k)).symm
  | some o =>
    obtain ⟨hm1, hm2⟩ := lookup_some_mem e
    have hx := h.abs.rep.mem_of e
    have hlt := h.abs.small o hm1
    have hk : ghost o.mt = false := by
      revert hx
      cases o.mt with
      | T1 => intro _; rfl
      | T2 => intro _; rfl
      | B1 => exact fun hx => absurd (List.mem_map_of_mem hx) hg.1
      | B2 => exact fun hx => absurd (List.mem_map_of_mem hx) hg.2
    have hin : id ∈ (cached s).ids := by
      refine List.mem_map.2 ⟨(id, o.size), h.abs.mem_cached.2 ?_, rfl⟩
      revert hx hk
      cases o.mt <;> simp [ghost] <;> exact fun h => by tauto
    obtain ⟨q', z', k1, k2⟩ := takeOff_spec h.abs.qs h.abs.mdz (h.abs.rep.nd o.mt) hx hm2 rfl hlt
    have hch : charge md (lists s o.mt) = charge md (Lists.without id (lists s o.mt)) + (o.size + md) := by
      have := without_charge (md := md) (h.abs.rep.nd o.mt) hx
      simp only at this; omega
    have hlen : (lists s o.mt).length = (Lists.without id (lists s o.mt)).length + 1 := without_length (h.abs.rep.nd o.mt) hx
    have hA : Abs cs md (drop (lists s) o.mt (id, o.size)) { s with q := q', sz := z', base := { s.base with occ := s.base.occ - (((o.size + s.base.objMd) % u32 : Nat) : Int), nObj := s.base.nObj - 1 }.del id } := by
      have hcap := h.abs.cap
      refine ⟨?_, h.abs.csz, h.abs.mdz, ?_, k2, ?_, ?_, ?_⟩
      · exact (h.abs.rep.del hx (rfl : (s.base.del id).tbl = _)).congr rfl
      · intro o' ho'; exact h.abs.small o' (List.mem_of_mem_eraseP ho')
      · show s.base.occ - _ = _
        rw [h.abs.mdz, Nat.mod_eq_of_lt hlt, h.abs.occ]
        revert hch hk
        generalize o.mt = k
        cases k with
        | T1 =>
          intro _ hch
          show _ = ((charge md (Lists.without id (lists s .T1)) + charge md (lists s .T2) : Nat) : Int)
          omega
        | T2 =>
          intro _ hch
          show _ = ((charge md (lists s .T1) + charge md (Lists.without id (lists s .T2)) : Nat) : Int)
          omega
        | B1 => intro hk; simp [ghost] at hk
        | B2 => intro hk; simp [ghost] at hk
      · show s.base.nObj - 1 = _
        rw [h.abs.nObj]
        revert hlen hk
        generalize o.mt = k
        cases k with
        | T1 =>
          intro _ hlen
          show _ = (((Lists.without id (lists s .T1)).length + (lists s .T2).length : Nat) : Int)
          omega
        | T2 =>
          intro _ hlen
          show _ = (((lists s .T1).length + (Lists.without id (lists s .T2)).length : Nat) : Int)
          omega
        | B1 => intro hk; simp [ghost] at hk
        | B2 => intro hk; simp [ghost] at hk
      · revert hch hk
        generalize o.mt = k
        cases k with
        | T1 =>
          intro _ hch
          show charge md (Lists.without id (lists s .T1)) + charge md (lists s .T2) ≤ cs
          omega
        | T2 =>
          intro _ hch
          show charge md (lists s .T1) + charge md (Lists.without id (lists s .T2)) ≤ cs
          omega
        | B1 => intro hk; simp [ghost] at hk
        | B2 => intro hk; simp [ghost] at hk
    have hdrop : drop (lists s) o.mt (id, o.size) = fun k => Adaptive.without id (lists s k) := by
      funext k
      by_cases ek : k = o.mt
      · subst ek
        show Lists.put _ o.mt _ o.mt = _
        rw [put_self]
      · show Lists.put _ o.mt _ k = _
        rw [put_ne _ ek]
        refine (filter_ids_eq ?_).symm
        intro hmem
        obtain ⟨y, hy, hye⟩ := List.mem_map.1 hmem
        exact ek (h.abs.rep.unique hy hx hye).1
    refine ⟨_, ?_, Inv.mk' hA h.vt, ?_, by rw [hA.lists, hdrop]⟩
    · rw [remove, e]
      simp only [k1, Res.bind_ok, hk, Bool.false_eq_true, if_false, Base.removeObjBase, e]
      rw [decide_eq_true hin]
    · refine hA.cached_perm.trans ?_
      rw [hdrop]
      have := h.abs.cached_perm.filter (fun x => decide (x.1 ≠ id))
      rw [List.filter_append] at this
      exact this.symm

end
end Verif.ARC
