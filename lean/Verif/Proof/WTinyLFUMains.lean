import Verif.Proof.WTinyLFU
import Verif.Proof.SLRU
/-!
# LRU, FIFO and SLRU as main caches of W-TinyLFU
-/

namespace Verif
open Spec

namespace WTinyLFU
open QDLP (ids_sub)

/-- LRU and FIFO queues that may exceed their size -/
structure QMain (ms : Nat) (s : QState Unit) : Prop where
  rep : Rep ms 0 s s.objs
  adm : s.base.adm = .none
  small : ∀ o ∈ s.objs, o.size ≤ ms

namespace QMain
variable {ms : Nat} {s : QState Unit}

theorem mk' {l : List (Obj Unit)} (h : Rep ms 0 s l) (ha : s.base.adm = .none) (hs : ∀ o ∈ l, o.size ≤ ms) : QMain ms s := by
  have e := h.objs
  exact ⟨by rw [e]; exact h, ha, by rw [e]; exact hs⟩

theorem init (ms : Nat) : QMain ms (QState.init ms 0 .none : QState Unit) := mk' (Rep.init ms 0 .none) rfl (by simp)

theorem ids (h : QMain ms s) (i : ObjId) : i ∈ s.base.cached.ids ↔ i ∈ s.objs.map (·.id) := by
  rw [(h.rep.cached.map Prod.fst).mem_iff, ← cont_ids]

theorem canInsert (h : QMain ms s) (r : Req) : s.canInsert r = (decide (r.size ≤ ms), s) := by
  rw [QState.canInsert, canInsertDefault_eq]
  have e : ({ s.base with adm := (s.base.adm.admit r).2 } : Base Unit) = s.base := by
    have : (s.base.adm.admit r).2 = s.base.adm := by rw [h.adm]; rfl
    rw [this]
  have e2 : (s.base.adm.admit r).1 = true := by rw [h.adm]; rfl
  refine Prod.ext ?_ ?_
  · simp only [admitsBase, e2, Bool.true_and, h.rep.csz, h.rep.mdz, Nat.add_zero]
  · show ({ s with base := { s.base with adm := (s.base.adm.admit r).2 } } : QState Unit) = s
    rw [e]

theorem modify (h : QMain ms s) (r : Req) : QMain ms (s.modify r.id (touch r)) := by
  refine mk' (h.rep.modify r.id (touch r) (fun _ => rfl) (fun _ => rfl)) h.adm ?_
  intro o ho
  obtain ⟨o', ho', rfl⟩ := List.mem_map.1 ho
  have := h.small o' ho'
  split <;> exact this

theorem insert (h : QMain ms s) (r : Req) (hn : r.id ∉ s.base.cached.ids) (hle : r.size ≤ ms) (hlt : r.size < u32) :
    ∃ s' kept, QState.insert () s r = .ok s' ∧ QMain ms s' ∧ kept.Subperm s.base.cached ∧ s'.base.cached.Perm ((r.id, r.size) :: kept) ∧
      (0 < charge 0 s.base.cached → 0 < charge 0 s'.base.cached) := by
  obtain ⟨s', k1, k2⟩ := h.rep.insert () r (fun hx => hn ((h.ids _).2 hx)) (sizeOk_zero r)
  have ha : s'.base.adm = .none := by
    unfold QState.insert at k1
    cases e : qPrepend s.q r.id with
    | error e' => rw [e] at k1; cases k1
    | ok q =>
      rw [e, Res.bind_ok] at k1
      cases k1
      exact h.adm
  have hp : s'.base.cached.Perm ((r.id, r.size) :: s.base.cached) := by
    refine k2.cached.trans ?_
    rw [cont_cons]
    have : ((Obj.ofReq () r).id, (Obj.ofReq () r).size) = (r.id, r.size) := by
      show (r.id, r.size % u32) = _
      rw [Nat.mod_eq_of_lt hlt]
    rw [this]
    exact (h.rep.cached.symm).cons _
  refine ⟨s', s.base.cached, k1, mk' k2 ha ?_, List.Subperm.refl _, hp, ?_⟩
  · intro o ho
    rcases List.mem_cons.1 ho with rfl | ho
    · show r.size % u32 ≤ ms
      rw [Nat.mod_eq_of_lt hlt]; exact hle
    · exact h.small o ho
  · intro hc
    rw [charge_perm hp]; simp only [charge]; omega

theorem evict (h : QMain ms s) (hc : 0 < charge 0 s.base.cached) :
    ∃ s' v, s.q.getLast? = some v.1 ∧ s.evictTail = .ok s' ∧ QMain ms s' ∧ s.base.cached.Perm (v :: s'.base.cached) := by
  rw [charge_perm h.rep.cached] at hc
  obtain ⟨l, o, hl⟩ := exists_last_of_charge hc
  obtain ⟨s', k1, k2⟩ := h.rep.evictTail hl
  have ha : s'.base.adm = .none := by
    unfold QState.evictTail at k1
    cases e : qTail s.q with
    | error e' => rw [e] at k1; cases k1
    | ok x =>
      rw [e, Res.bind_ok] at k1
      cases e2 : s.base.evictBase x with
      | error e' => rw [e2] at k1; cases k1
      | ok b =>
        rw [e2, Res.bind_ok] at k1
        have hb : b.adm = s.base.adm := by
          unfold Base.evictBase Base.removeObjBase at e2
          cases e3 : s.base.lookup x with
          | none => rw [e3] at e2; cases e2
          | some o => rw [e3] at e2; cases e2; rfl
        cases k1
        rw [← h.adm, ← hb]
  refine ⟨s', (o.id, o.size), ?_, k1, mk' k2 ha (fun x hx => h.small x (by simp [hl, hx])), ?_⟩
  · rw [h.rep.q, hl]; simp
  · refine h.rep.cached.trans ?_
    rw [hl, cont_append]
    refine List.Perm.trans List.perm_append_comm ?_
    exact (k2.cached.symm).cons _

theorem remove (h : QMain ms s) (id : ObjId) : ∃ s', s.remove id = .ok (decide (id ∈ s.base.cached.ids), s') ∧ QMain ms s' ∧
    s'.base.cached.Perm (s.base.cached.filter (fun x => x.1 ≠ id)) := by
  by_cases hf : id ∈ s.objs.map (·.id)
  · obtain ⟨s', k1, k2⟩ := h.rep.remove_hit hf
    have ha : s'.base.adm = .none := by
      unfold QState.remove at k1
      cases e : s.base.lookup id with
      | none => rw [e] at k1; cases k1
      | some o =>
        rw [e] at k1
        simp only at k1
        cases e1 : qRemove s.q id with
        | error e' => rw [e1] at k1; cases k1
        | ok q =>
          rw [e1, Res.bind_ok] at k1
          cases e2 : s.base.removeObjBase id with
          | error e' => rw [e2] at k1; cases k1
          | ok b =>
            rw [e2, Res.bind_ok] at k1
            have hb : b.adm = s.base.adm := by
              unfold Base.removeObjBase at e2
              rw [e] at e2; cases e2; rfl
            cases k1
            rw [← h.adm, ← hb]
    refine ⟨s', by rw [decide_eq_true ((h.ids id).2 hf)]; exact k1, mk' k2 ha (fun x hx => h.small x (List.mem_of_mem_filter hx)), ?_⟩
    refine k2.cached.trans ?_
    rw [delL_cont]
    exact (h.rep.cached.symm).filter _
  · have hf' : id ∉ s.base.cached.ids := fun hx => hf ((h.ids id).1 hx)
    exact ⟨s, by rw [decide_eq_false hf']; exact h.rep.remove_miss hf, h, by rw [filter_ids_eq hf']⟩

theorem nodup (h : QMain ms s) : s.base.cached.ids.Nodup := by
  rw [Contents.ids, (h.rep.cached.map Prod.fst).nodup_iff, ← Contents.ids, cont_ids]; exact h.rep.nodup

theorem occ (h : QMain ms s) : s.base.occ = (charge 0 s.base.cached : Nat) := by rw [h.rep.occ, charge_perm h.rep.cached]

theorem nObj (h : QMain ms s) : s.base.nObj = (s.base.cached.length : Nat) := by rw [h.rep.nObj, h.rep.cached.length_eq, cont_length]

theorem sizes (h : QMain ms s) : ∀ x ∈ s.base.cached, x.2 ≤ ms := by
  intro x hx
  obtain ⟨o, ho, rfl⟩ := List.mem_map.1 (h.rep.cached.subset hx)
  exact h.small o ho

end QMain

/-- FIFO as main cache -/
theorem mainFIFO (cs ms : Nat) : Main FIFO.algo FIFO.toEvict (fun s => s.base.cached) (QMain ms) cs ms ms True where
  lim_le := Nat.le_refl _
  csz := fun h => h.rep.csz
  nodup := fun h => h.nodup
  occ := fun h => h.occ
  nObj := fun h => h.nObj
  small := fun h => h.sizes
  findF := fun {s} r h => by
    show FIFO.find s r false = _
    simp only [FIFO.find, findBase_false]
    rw [lookup_isSome_iff]
  findMiss := fun {s} r h hn => by
    show FIFO.find s r true = _
    simp only [FIFO.find, findBase_miss (lookup_none_iff'.2 hn)]; rfl
  findHit := fun {s} r h hin => by
    obtain ⟨o, h1, _, _⟩ := h.rep.lookup_some ((h.ids _).1 hin)
    refine ⟨s.modify r.id (touch r), ?_, h.modify r, ?_⟩
    · show FIFO.find s r true = _
      simp only [FIFO.find, findBase_hit h1]; rfl
    · refine List.Perm.subperm ?_
      have := (h.rep.modify r.id (touch r) (fun _ => rfl) (fun _ => rfl)).cached
      rw [modL_cont _ (touch r) (fun _ => rfl) (fun _ => rfl)] at this
      exact this.trans h.rep.cached.symm
  canInsert := fun r h => h.canInsert r
  insert := fun r h h1 h2 h3 _ => h.insert r h1 h2 h3
  evict := fun {s} r h hc => h.evict hc
  remove := fun _ {s} id h => h.remove id

/-- LRU as main cache -/
theorem mainLRU (cs ms : Nat) : Main LRU.algo LRU.toEvict (fun s => s.base.cached) (QMain ms) cs ms ms True where
  lim_le := Nat.le_refl _
  csz := fun h => h.rep.csz
  nodup := fun h => h.nodup
  occ := fun h => h.occ
  nObj := fun h => h.nObj
  small := fun h => h.sizes
  findF := fun {s} r h => by
    show LRU.find s r false = _
    have := lookup_isSome_iff (b := s.base) (id := r.id)
    rw [← this]
    cases e : s.base.lookup r.id <;> simp [LRU.find, findBase_false, e]
  findMiss := fun {s} r h hn => by
    show LRU.find s r true = _
    simp [LRU.find, findBase_miss (lookup_none_iff'.2 hn)]
  findHit := fun {s} r h hin => by
    obtain ⟨o, h1, h2, h3⟩ := h.rep.lookup_some ((h.ids _).1 hin)
    have hrep := h.rep.modify r.id (touch r) (fun _ => rfl) (fun _ => rfl)
    have ho : touch r o ∈ modL r.id (touch r) s.objs := List.mem_map.2 ⟨o, h2, by simp [h3]⟩
    obtain ⟨q', k1, k2⟩ := hrep.toHead ho (id := r.id) h3
    have hp := Rep.charge_del hrep.nodup ho (show (touch r o).id = r.id from h3)
    have hsm := (h.modify r).small
    rw [hrep.objs] at hsm
    refine ⟨{ s.modify r.id (touch r) with q := q' }, ?_, QMain.mk' k2 h.adm (fun x hx => hsm x (hp.symm.subset hx)), ?_⟩
    · show LRU.find s r true = _
      have k1' : qMoveToHead s.q r.id = .ok q' := k1
      simp only [LRU.find, findBase_hit h1, if_true, k1', Res.bind_ok]; rfl
    · refine List.Perm.subperm ?_
      have := hrep.cached
      rw [modL_cont _ (touch r) (fun _ => rfl) (fun _ => rfl)] at this
      exact this.trans h.rep.cached.symm
  canInsert := fun r h => h.canInsert r
  insert := fun r h h1 h2 h3 _ => h.insert r h1 h2 h3
  evict := fun {s} r h hc => h.evict hc
  remove := fun _ {s} id h => h.remove id

/-! ### SLRU -/

section
variable {cs ms n : Nat} {lim : Nat → Nat} {s : SLRU.State}

/-- the same cache with another size: only `insert` and `can_insert` look at the size -/
def big (c : Nat) (s : SLRU.State) : SLRU.State := { s with base := { s.base with cacheSize := c } }

/-- an SLRU cache of size `ms` inside a cache of size `cs`, without an admission policy of its own: it may exceed its own size -/
structure SMain (cs ms n : Nat) (lim : Nat → Nat) (s : SLRU.State) : Prop where
  inv : SLRU.Inv cs n lim { ev := false } (big cs s)
  csz : s.base.cacheSize = ms
  adm : s.base.adm = .none

theorem sInit (cs ms n : Nat) (lim : Nat → Nat) : SMain cs ms n lim (SLRU.init ms 0 .none n lim) :=
  ⟨SLRU.inv_init cs n lim _ .none, rfl, rfl⟩

theorem unlink_adm {s s' : SLRU.State} {o : Obj Nat} (h : SLRU.unlink s o = .ok s') : s'.base.adm = s.base.adm := by
  unfold SLRU.unlink at h
  obtain ⟨_, _, h⟩ := Res.bind_eq_ok.1 h
  obtain ⟨_, _, h⟩ := Res.bind_eq_ok.1 h
  cases h; rfl

theorem removeObj_adm {b b' : Base Nat} {id : ObjId} (h : b.removeObjBase id = .ok b') : b'.adm = b.adm := by
  unfold Base.removeObjBase at h
  cases e : b.lookup id with
  | none => rw [e] at h; cases h
  | some o => rw [e] at h; cases h; rfl

theorem evict_adm {s s' : SLRU.State} (h : SLRU.evict s = .ok s') : s'.base.adm = s.base.adm := by
  unfold SLRU.evict at h
  split at h
  · cases h
  · split at h
    · cases h
    · obtain ⟨s1, h1, h⟩ := Res.bind_eq_ok.1 h
      obtain ⟨b, h2, h⟩ := Res.bind_eq_ok.1 h
      cases h
      exact (removeObj_adm h2).trans (unlink_adm h1)

theorem moveDown_adm {s s' : SLRU.State} {i : Nat} (h : SLRU.moveDown s i = .ok s') : s'.base.adm = s.base.adm := by
  unfold SLRU.moveDown at h
  obtain ⟨_, _, h⟩ := Res.bind_eq_ok.1 h
  split at h
  · cases h
  · obtain ⟨_, _, h⟩ := Res.bind_eq_ok.1 h
    obtain ⟨_, _, h⟩ := Res.bind_eq_ok.1 h
    cases h; rfl

theorem coolLoop_adm : ∀ (k : Nat) {s s' : SLRU.State} {i : Nat}, SLRU.coolLoop k s i = .ok s' → s'.base.adm = s.base.adm
  | 0, s, s', i, h => by
    unfold SLRU.coolLoop at h
    split at h
    · cases h
    · cases h; rfl
  | k + 1, s, s', i, h => by
    unfold SLRU.coolLoop at h
    split at h
    · obtain ⟨s2, h2, h⟩ := Res.bind_eq_ok.1 h
      refine (coolLoop_adm k h).trans ?_
      split at h2
      · exact evict_adm h2
      · obtain ⟨s1, h1, h2⟩ := Res.bind_eq_ok.1 h2
        exact (coolLoop_adm k h2).trans (moveDown_adm h1)
    · cases h; rfl

theorem cool_adm {k : Nat} {s s' : SLRU.State} {i : Nat} (h : SLRU.cool k s i = .ok s') : s'.base.adm = s.base.adm := by
  unfold SLRU.cool at h
  split at h
  · exact evict_adm h
  · obtain ⟨s1, h1, h2⟩ := Res.bind_eq_ok.1 h
    exact (coolLoop_adm k h2).trans (moveDown_adm h1)

theorem promote_adm {s s' : SLRU.State} {o : Obj Nat} (h : SLRU.promote s o = .ok s') : s'.base.adm = s.base.adm := by
  unfold SLRU.promote at h
  obtain ⟨s1, h1, h⟩ := Res.bind_eq_ok.1 h
  obtain ⟨_, _, h⟩ := Res.bind_eq_ok.1 h
  obtain ⟨_, _, h⟩ := Res.bind_eq_ok.1 h
  cases h
  have := unlink_adm h1
  exact this

theorem findLoop_adm (fuel : Nat) : ∀ (k : Nat) {s s' : SLRU.State} {id : ObjId}, SLRU.findLoop fuel k s id = .ok s' → s'.base.adm = s.base.adm := by
  intro k
  induction k with
  | zero =>
    intro s s' id h
    unfold SLRU.findLoop at h
    split at h
    · cases h
    · split at h
      · cases h
      · cases h; rfl
  | succ k ih =>
    intro s s' id h
    unfold SLRU.findLoop at h
    split at h
    · cases h
    · split at h
      · obtain ⟨s1, h1, h⟩ := Res.bind_eq_ok.1 h
        exact (ih h).trans (cool_adm h1)
      · cases h; rfl

theorem find_adm {s s' : SLRU.State} {r : Req} {u b : Bool} (h : SLRU.find s r u = .ok (b, s')) : s'.base.adm = s.base.adm := by
  unfold SLRU.find at h
  split at h
  · cases h; rfl
  · split at h
    · cases h; rfl
    · split at h
      · obtain ⟨_, _, h⟩ := Res.bind_eq_ok.1 h
        cases h; rfl
      · obtain ⟨s1, h1, h⟩ := Res.bind_eq_ok.1 h
        obtain ⟨s2, h2, h⟩ := Res.bind_eq_ok.1 h
        cases h
        exact (findLoop_adm _ _ h2).trans (promote_adm h1)

theorem insertLoop_adm (r : Req) : ∀ (k : Nat) {s s' : SLRU.State}, SLRU.insertLoop r k s = .ok s' → s'.base.adm = s.base.adm := by
  intro k
  induction k with
  | zero =>
    intro s s' h
    unfold SLRU.insertLoop at h
    split at h
    · cases h
    · cases h; rfl
  | succ k ih =>
    intro s s' h
    unfold SLRU.insertLoop at h
    split at h
    · obtain ⟨s1, h1, h⟩ := Res.bind_eq_ok.1 h
      exact (ih h).trans (evict_adm h1)
    · cases h; rfl

theorem insertAt_adm {s s' : SLRU.State} {r : Req} {k : Nat} (h : SLRU.insertAt s r k = .ok s') : s'.base.adm = s.base.adm := by
  unfold SLRU.insertAt at h
  obtain ⟨_, _, h⟩ := Res.bind_eq_ok.1 h
  cases h; rfl

theorem sInsert_adm {s s' : SLRU.State} {r : Req} (h : SLRU.insert s r = .ok s') : s'.base.adm = s.base.adm := by
  unfold SLRU.insert at h
  split at h
  · exact insertAt_adm h
  · obtain ⟨s1, h1, h⟩ := Res.bind_eq_ok.1 h
    exact (insertAt_adm h).trans (insertLoop_adm r _ h1)

/-! The functions other than `insert` and `can_insert` do not look at the size of the cache. -/

theorem resize_iff {c : Nat} {f : SLRU.State → Res SLRU.State} (h : ∀ s, f (big c s) = f s >>= fun s' => .ok (big c s')) {s s2 : SLRU.State} (hs : f (big c s) = .ok s2) :
    ∃ s', f s = .ok s' ∧ s2 = big c s' := by
  rw [h] at hs
  obtain ⟨s', h1, h2⟩ := Res.bind_eq_ok.1 hs
  cases h2
  exact ⟨s', h1, rfl⟩

theorem unlink_big (c : Nat) (o : Obj Nat) (s : SLRU.State) : SLRU.unlink (big c s) o = SLRU.unlink s o >>= fun s' => .ok (big c s') := by
  unfold SLRU.unlink
  have e : SLRU.inRange (big c s) o.mt = SLRU.inRange s o.mt := rfl
  rw [e]
  cases SLRU.inRange s o.mt with
  | error e => rfl
  | ok _ =>
    have e2 : qRemove ((big c s).q o.mt) o.id = qRemove (s.q o.mt) o.id := rfl
    simp only [Res.bind_ok, e2]
    cases qRemove (s.q o.mt) o.id with
    | error e => rfl
    | ok _ => rfl

theorem unlink_tbl {s s1 : SLRU.State} {o : Obj Nat} (h : SLRU.unlink s o = .ok s1) : s1.base = s.base := by
  unfold SLRU.unlink at h
  obtain ⟨_, _, h⟩ := Res.bind_eq_ok.1 h
  obtain ⟨_, _, h⟩ := Res.bind_eq_ok.1 h
  cases h; rfl

theorem removeObj_big (c : Nat) (b : Base Nat) (id : ObjId) :
    ({ b with cacheSize := c } : Base Nat).removeObjBase id = b.removeObjBase id >>= fun b' => .ok { b' with cacheSize := c } := by
  unfold Base.removeObjBase
  have e : ({ b with cacheSize := c } : Base Nat).lookup id = b.lookup id := rfl
  rw [e]
  cases b.lookup id <;> rfl

theorem evict_big (c : Nat) (s : SLRU.State) : SLRU.evict (big c s) = SLRU.evict s >>= fun s' => .ok (big c s') := by
  unfold SLRU.evict
  have e : SLRU.toEvict (big c s) = SLRU.toEvict s := rfl
  rw [e]
  cases SLRU.toEvict s with
  | none => rfl
  | some id =>
    have e2 : (big c s).base.lookup id = s.base.lookup id := rfl
    simp only [e2]
    cases s.base.lookup id with
    | none => rfl
    | some o =>
      simp only [unlink_big]
      cases SLRU.unlink s o with
      | error e => rfl
      | ok s1 =>
        simp only [Res.bind_ok, Base.evictBase]
        rw [show (big c s1).base.removeObjBase id = s1.base.removeObjBase id >>= fun b' => .ok { b' with cacheSize := c } from removeObj_big c s1.base id]
        cases s1.base.removeObjBase id <;> rfl

theorem moveDown_big (c i : Nat) (s : SLRU.State) : SLRU.moveDown (big c s) i = SLRU.moveDown s i >>= fun s' => .ok (big c s') := by
  unfold SLRU.moveDown
  have e : (big c s).q = s.q := rfl
  simp only [e]
  cases qTail (s.q i) with
  | error e => rfl
  | ok x =>
    have e2 : (big c s).base.lookup x = s.base.lookup x := rfl
    simp only [Res.bind_ok, e2]
    cases s.base.lookup x with
    | none => rfl
    | some o =>
      simp only
      cases qRemove (s.q i) x with
      | error e => rfl
      | ok q =>
        simp only [Res.bind_ok]
        cases qPrepend (s.q (i - 1)) x <;> rfl

theorem coolLoop_big (c : Nat) : ∀ (k i : Nat) (s : SLRU.State), SLRU.coolLoop k (big c s) i = SLRU.coolLoop k s i >>= fun s' => .ok (big c s')
  | 0, i, s => by
    unfold SLRU.coolLoop
    have e : SLRU.over (big c s) i = SLRU.over s i := rfl
    rw [e]
    split <;> rfl
  | k + 1, i, s => by
    unfold SLRU.coolLoop
    have e : SLRU.over (big c s) i = SLRU.over s i := rfl
    rw [e]
    split
    · have h1 : (if i = 0 then SLRU.evict (big c s) else SLRU.moveDown (big c s) i >>= fun s1 => SLRU.coolLoop k s1 (i - 1)) =
          (if i = 0 then SLRU.evict s else SLRU.moveDown s i >>= fun s1 => SLRU.coolLoop k s1 (i - 1)) >>= fun s' => .ok (big c s') := by
        split
        · exact evict_big c s
        · rw [moveDown_big]
          cases SLRU.moveDown s i with
          | error e => rfl
          | ok s1 => exact coolLoop_big c k (i - 1) s1
      rw [h1]
      cases (if i = 0 then SLRU.evict s else SLRU.moveDown s i >>= fun s1 => SLRU.coolLoop k s1 (i - 1)) with
      | error e => rfl
      | ok s2 => exact coolLoop_big c k i s2
    · rfl

theorem cool_big (c k i : Nat) (s : SLRU.State) : SLRU.cool k (big c s) i = SLRU.cool k s i >>= fun s' => .ok (big c s') := by
  unfold SLRU.cool
  split
  · exact evict_big c s
  · rw [moveDown_big]
    cases SLRU.moveDown s i with
    | error e => rfl
    | ok s1 => exact coolLoop_big c k (i - 1) s1

theorem promote_big (c : Nat) (o : Obj Nat) (s : SLRU.State) : SLRU.promote (big c s) o = SLRU.promote s o >>= fun s' => .ok (big c s') := by
  unfold SLRU.promote
  rw [unlink_big]
  have e : SLRU.inRange (big c s) (o.mt + 1) = SLRU.inRange s (o.mt + 1) := rfl
  cases SLRU.unlink s o with
  | error e => rfl
  | ok s1 =>
    simp only [Res.bind_ok, e]
    cases SLRU.inRange s (o.mt + 1) with
    | error e => rfl
    | ok _ =>
      have e2 : (big c s1).q = s1.q := rfl
      simp only [Res.bind_ok, e2]
      cases qPrepend (s1.q (o.mt + 1)) o.id <;> rfl

theorem findLoop_big (c fuel : Nat) (id : ObjId) : ∀ (k : Nat) (s : SLRU.State), SLRU.findLoop fuel k (big c s) id = SLRU.findLoop fuel k s id >>= fun s' => .ok (big c s') := by
  intro k
  induction k with
  | zero =>
    intro s
    unfold SLRU.findLoop
    have e : (big c s).base.lookup id = s.base.lookup id := rfl
    rw [e]
    cases s.base.lookup id with
    | none => rfl
    | some o =>
      have e2 : SLRU.over (big c s) o.mt = SLRU.over s o.mt := rfl
      simp only [e2]
      split <;> rfl
  | succ k ih =>
    intro s
    unfold SLRU.findLoop
    have e : (big c s).base.lookup id = s.base.lookup id := rfl
    rw [e]
    cases s.base.lookup id with
    | none => rfl
    | some o =>
      have e2 : SLRU.over (big c s) o.mt = SLRU.over s o.mt := rfl
      simp only [e2]
      split
      · rw [cool_big]
        cases SLRU.cool fuel s o.mt with
        | error e => rfl
        | ok s1 => exact ih s1
      · rfl

theorem find_big (c : Nat) (r : Req) (u : Bool) (s : SLRU.State) : SLRU.find (big c s) r u = SLRU.find s r u >>= fun p => .ok (p.1, big c p.2) := by
  unfold SLRU.find
  have e : (big c s).base.lookup r.id = s.base.lookup r.id := rfl
  rw [e]
  cases s.base.lookup r.id with
  | none => rfl
  | some o =>
    have e1 : (big c s).nSeg = s.nSeg := rfl
    have e2 : (big c s).q = s.q := rfl
    simp only [e1, e2]
    split
    · rfl
    · split
      · cases qMoveToHead (s.q o.mt) r.id <;> rfl
      · rw [promote_big]
        cases SLRU.promote s o with
        | error e => rfl
        | ok s1 =>
          simp only [Res.bind_ok]
          have e3 : SLRU.moves (big c s1) = SLRU.moves s1 := rfl
          rw [e3, findLoop_big]
          cases SLRU.findLoop (SLRU.moves s1) (SLRU.moves s1) s1 r.id <;> rfl

theorem insertAt_big (c k : Nat) (r : Req) (s : SLRU.State) : SLRU.insertAt (big c s) r k = SLRU.insertAt s r k >>= fun s' => .ok (big c s') := by
  unfold SLRU.insertAt
  have e : (big c s).q = s.q := rfl
  simp only [e]
  cases qPrepend (s.q k) r.id <;> rfl

theorem csz_of_big {f : SLRU.State → Res SLRU.State} (h : ∀ c s, f (big c s) = f s >>= fun s' => .ok (big c s')) {s s' : SLRU.State} (hs : f s = .ok s') :
    s'.base.cacheSize = s.base.cacheSize := by
  have e := h s.base.cacheSize s
  have e1 : big s.base.cacheSize s = s := rfl
  rw [e1, hs, Res.bind_ok] at e
  injection e with e
  rw [e]; rfl

theorem find_csz {s s' : SLRU.State} {r : Req} {u b : Bool} (hs : SLRU.find s r u = .ok (b, s')) : s'.base.cacheSize = s.base.cacheSize := by
  have e := find_big s.base.cacheSize r u s
  have e1 : big s.base.cacheSize s = s := rfl
  rw [e1, hs, Res.bind_ok] at e
  injection e with e
  injection e with _ e
  rw [e]; rfl

theorem SMain.occ (h : SMain cs ms n lim s) : s.base.occ = (charge 0 s.base.cached : Nat) := by
  have := h.inv.abs.base.inv.occ_eq
  rw [h.inv.abs.base.md] at this
  exact this

theorem SMain.evict (h : SMain cs ms n lim s) (hc : 0 < charge 0 s.base.cached) :
    ∃ s' x, SLRU.evict s = .ok s' ∧ SLRU.toEvict s = some x.1 ∧ SMain cs ms n lim s' ∧ s.base.cached.Perm (x :: s'.base.cached) := by
  obtain ⟨s2, x, e1, e0, e2, _, e3⟩ := SLRU.evict_spec h.inv hc
  obtain ⟨s', h1, rfl⟩ := resize_iff (evict_big cs) e1
  exact ⟨s', x, h1, e0, ⟨e2, (csz_of_big evict_big h1).trans h.csz, (evict_adm h1).trans h.adm⟩, e3⟩

/-- The loop of `SLRU_insert`. -/
theorem insertLoop_spec (hlm : lim 0 ≤ ms) (r : Req) (hr : r.size ≤ ms) : ∀ (k : Nat) {s : SLRU.State}, SMain cs ms n lim s → s.base.tbl.length ≤ k →
    ∃ s', SLRU.insertLoop r k s = .ok s' ∧ SMain cs ms n lim s' ∧ s'.base.cached.Subperm s.base.cached ∧
      (0 < charge 0 s.base.cached → 0 < r.size + charge 0 s'.base.cached) := by
  intro k
  induction k with
  | zero =>
    intro s h hk
    unfold SLRU.insertLoop
    have hnil : s.base.tbl = [] := List.eq_nil_of_length_eq_zero (by omega)
    have hmd : s.base.objMd = 0 := h.inv.abs.base.md
    have hc : ¬ (s.base.occ + r.size + s.base.objMd > (s.base.cacheSize : Int)) := by
      rw [hmd, h.csz, h.occ, Base.cached, hnil]
      simp only [List.map_nil, charge]
      omega
    rw [if_neg hc]
    exact ⟨s, rfl, h, List.Subperm.refl _, fun h => by omega⟩
  | succ k ih =>
    intro s h hk
    unfold SLRU.insertLoop
    by_cases hc : s.base.occ + r.size + s.base.objMd > (s.base.cacheSize : Int)
    · rw [if_pos hc]
      have hmd : s.base.objMd = 0 := h.inv.abs.base.md
      rw [hmd, h.csz, h.occ] at hc
      obtain ⟨s1, x, e1, _, e2, e3⟩ := h.evict (by omega)
      have hlen := e3.length_eq
      simp only [Base.cached, List.length_map, List.length_cons] at hlen
      obtain ⟨s', f1, f2, f3, f4⟩ := ih e2 (by omega)
      refine ⟨s', by simp only [e1, Res.bind_ok]; exact f1, f2, f3.trans ((List.Sublist.subperm (List.sublist_cons_self _ _)).trans e3.symm.subperm), ?_⟩
      intro _
      by_cases h0 : 0 < r.size
      · omega
      · have hx : x.2 ≤ lim 0 := h.inv.small x (e3.symm.subset (by simp))
        have hch := charge_perm (md := 0) e3
        simp only [charge] at hch
        exact f4 (by omega)
    · rw [if_neg hc]
      exact ⟨s, rfl, h, List.Subperm.refl _, fun h => by omega⟩

theorem SMain.insertAt (h : SMain cs ms n lim s) {r : Req} {k : Nat} (hk : k < n) (hn : s.base.lookup r.id = none) (hsz : r.size < u32) (hle : r.size ≤ lim 0)
    (hroom : charge 0 s.base.cached + r.size ≤ cs) (hw : 1 ≤ k → charge 0 (SLRU.segs (big cs s) k) + r.size ≤ lim k) :
    ∃ s', SLRU.insertAt s r k = .ok s' ∧ SMain cs ms n lim s' ∧ s'.base.cached = (r.id, r.size) :: s.base.cached := by
  have ho : (big cs s).base.occ = (charge 0 s.base.cached : Nat) := h.occ
  obtain ⟨s2, k1, k2, k3⟩ := h.inv.abs.insertAt hk (r := r) hn hsz (by rw [ho]; omega)
  obtain ⟨s', h1, rfl⟩ := resize_iff (f := fun s => SLRU.insertAt s r k) (insertAt_big cs k r) k1
  have k3' : s'.base.cached = (r.id, r.size) :: s.base.cached := k3
  refine ⟨s', h1, ⟨SLRU.Inv.mk' k2 ?_ ?_ (by simp), (csz_of_big (f := fun s => SLRU.insertAt s r k) (fun c s => insertAt_big c k r s) h1).trans h.csz, (insertAt_adm h1).trans h.adm⟩, k3'⟩
  · intro i hi
    by_cases e : i = k
    · subst e; rw [Segmented.put_self]; have := hw hi; simp only [charge]; omega
    · rw [Segmented.put_ne _ e]; exact h.inv.within i hi
  · intro x hx
    have hx' : x ∈ s'.base.cached := hx
    rw [k3'] at hx'
    rcases List.mem_cons.1 hx' with rfl | hx
    · exact hle
    · exact h.inv.small x hx

theorem SMain.insert (hn1 : 1 ≤ n) (hlm : lim 0 ≤ ms) (h : SMain cs ms n lim s) {r : Req} (hn : s.base.lookup r.id = none) (hsz : r.size < u32) (hle : r.size ≤ lim 0)
    (hroom : charge 0 s.base.cached + r.size ≤ cs) :
    ∃ s' kept, SLRU.insert s r = .ok s' ∧ SMain cs ms n lim s' ∧ kept.Subperm s.base.cached ∧ s'.base.cached = (r.id, r.size) :: kept ∧
      (0 < charge 0 s.base.cached → 0 < charge 0 s'.base.cached) := by
  cases hp : SLRU.pickSeg s r with
  | some k =>
    obtain ⟨h1, h2, _⟩ := SLRU.pickSeg_some h.inv.abs (show SLRU.pickSeg (big cs s) r = some k from hp)
    obtain ⟨s', k1, k2, k3⟩ := h.insertAt h1 hn hsz hle hroom (fun _ => h2)
    refine ⟨s', s.base.cached, by rw [SLRU.insert, hp]; exact k1, k2, List.Subperm.refl _, k3, fun hc => ?_⟩
    rw [k3, charge]; omega
  | none =>
    obtain ⟨s1, l1, l2, l3, l4⟩ := insertLoop_spec hlm r (by omega) _ h (Nat.le_refl _)
    have hn1' : s1.base.lookup r.id = none := lookup_none_iff'.2 (notMem_ids_of_subperm l3 (lookup_none_iff'.1 hn))
    obtain ⟨s', k1, k2, k3⟩ := l2.insertAt (k := 0) hn1 hn1' hsz hle (by have := charge_subperm (md := 0) l3; omega) (by omega)
    refine ⟨s', s1.base.cached, ?_, k2, l3, k3, fun hc => ?_⟩
    · rw [SLRU.insert, hp]; simp only [l1, Res.bind_ok, k1]
    · have := l4 hc
      rw [k3, charge]; omega

/-- SLRU as main cache; its `remove` does not work -/
theorem mainSLRU (cs ms n : Nat) (lim : Nat → Nat) (hn1 : 1 ≤ n) (hlm : lim 0 ≤ ms) :
    Main SLRU.algo SLRU.toEvict (fun s => s.base.cached) (SMain cs ms n lim) cs ms (lim 0) False where
  lim_le := hlm
  csz := fun h => h.csz
  nodup := fun {s} h => by
    have h1 : (s.base.tbl.map (·.id)).Nodup := h.inv.abs.base.inv.nodup
    rw [Contents.ids, map_id_eq]; exact h1
  occ := fun h => h.occ
  nObj := fun {s} h => by
    have : s.base.nObj = _ := h.inv.abs.base.inv.nObj_eq
    show s.base.nObj = _
    rw [this]; simp [Base.cached, big]
  small := fun h => h.inv.small
  findF := fun {s} r h => by
    show SLRU.find s r false = _
    rw [SLRU.find]
    have := lookup_isSome_iff (b := s.base) (id := r.id)
    rw [← this]
    cases e : s.base.lookup r.id <;> simp
  findMiss := fun {s} r h hn => by
    show SLRU.find s r true = _
    rw [SLRU.find, lookup_none_iff'.2 hn]
  findHit := fun {s} r h hin => by
    obtain ⟨x, hx, hxe⟩ := List.mem_map.1 hin
    obtain ⟨k, hk⟩ := h.inv.abs.mem_cached.1 (show x ∈ (big cs s).base.cached from hx)
    obtain ⟨s2, h1, h2, _, h4, _⟩ := SLRU.find_hit h.inv hk r hxe.symm
    rw [find_big] at h1
    obtain ⟨⟨b, s'⟩, h6, h5⟩ := Res.bind_eq_ok.1 h1
    clear h1
    cases h5
    exact ⟨s', h6, ⟨h2, (find_csz h6).trans h.csz, (find_adm h6).trans h.adm⟩, h4⟩
  canInsert := fun {s} r h => by
    show SLRU.canInsert s r = _
    have h1 : s.base.objMd = 0 := h.inv.abs.base.md
    have h2 : s.lim = lim := h.inv.abs.limz
    rw [SLRU.canInsert, canInsertDefault_eq]
    have e : ({ s.base with adm := (s.base.adm.admit r).2 } : Base Nat) = s.base := by
      have : (s.base.adm.admit r).2 = s.base.adm := by rw [h.adm]; rfl
      rw [this]
    have e2 : (s.base.adm.admit r).1 = true := by rw [h.adm]; rfl
    refine Prod.ext ?_ ?_
    · simp only [admitsBase, e2, Bool.true_and, h.csz, h1, h2, Nat.add_zero, ← Bool.decide_and]
      exact decide_eq_decide.2 ⟨fun h => h.2, fun h => ⟨by omega, h⟩⟩
    · show ({ s with base := { s.base with adm := (s.base.adm.admit r).2 } } : SLRU.State) = s
      rw [e]
  insert := fun {s} r h h1 h2 h3 h4 => by
    obtain ⟨s', kept, k1, k2, k3, k4, k5⟩ := h.insert hn1 hlm (lookup_none_iff'.2 h1) h3 h2 h4
    exact ⟨s', kept, k1, k2, k3, by rw [k4], k5⟩
  evict := fun {s} r h hc => by
    obtain ⟨s', x, e1, e0, e2, e3⟩ := h.evict hc
    exact ⟨s', x, e0, e1, e2, e3⟩
  remove := fun h => h.elim

end
end WTinyLFU
end Verif
