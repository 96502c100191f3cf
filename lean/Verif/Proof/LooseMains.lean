import Verif.Proof.Loose
/-!
# FIFO, LRU, Clock and Sieve with a size that is changed by others

Helper file: instances of `Loose`.
-/

namespace Verif
open Spec
variable {μ : Type}

/-- another `cache_size` -/
def Base.sized (b : Base μ) (n : Nat) : Base μ := { b with cacheSize := n }

@[simp] theorem Base.sized_lookup (b : Base μ) (n : Nat) (id : ObjId) : (b.sized n).lookup id = b.lookup id := rfl
@[simp] theorem Base.sized_modify (b : Base μ) (n : Nat) (id : ObjId) (f : Obj μ → Obj μ) : (b.sized n).modify id f = (b.modify id f).sized n := rfl
@[simp] theorem Base.sized_insertBase (b : Base μ) (n : Nat) (z : μ) (r : Req) : (b.sized n).insertBase z r = (b.insertBase z r).sized n := rfl
@[simp] theorem Base.sized_tbl (b : Base μ) (n : Nat) : (b.sized n).tbl = b.tbl := rfl

theorem Base.sized_findBase (b : Base μ) (n : Nat) (r : Req) (u : Bool) :
    (b.sized n).findBase r u = ((b.findBase r u).1, (b.findBase r u).2.sized n) := by
  unfold Base.findBase
  rw [Base.sized_lookup]
  cases b.lookup r.id with
  | none => rfl
  | some o => cases u <;> rfl

theorem Base.sized_removeObjBase (b : Base μ) (n : Nat) (id : ObjId) :
    (b.sized n).removeObjBase id = (b.removeObjBase id).map (fun x => x.sized n) := by
  unfold Base.removeObjBase
  rw [Base.sized_lookup]
  cases b.lookup id with
  | none => rfl
  | some o => rfl

theorem Base.sized_evictBase (b : Base μ) (n : Nat) (id : ObjId) :
    (b.sized n).evictBase id = (b.evictBase id).map (fun x => x.sized n) := b.sized_removeObjBase n id

theorem BInv.grow {n m : Nat} {b : Base μ} (h : BInv n 0 b) (hle : n ≤ m) : BInv m 0 (b.sized m) := by
  have h1 := h.inv.cap
  rw [h.cs] at h1
  exact ⟨⟨h.inv.nodup, h.inv.occ_eq, h.inv.nObj_eq, by show b.occ ≤ (m : Int); omega, h.inv.small⟩, rfl, h.md⟩

/-! ### The queue operations -/

section
variable (s : QState μ) (n : Nat)

/-- another `cache_size` -/
def QState.sized : QState μ := ⟨s.base.sized n, s.q⟩

theorem QState.sized_insert (z : μ) (r : Req) : QState.insert z (s.sized n) r = (QState.insert z s r).map (fun x => x.sized n) := by
  unfold QState.insert
  show (qPrepend s.q r.id >>= fun q' => _) = _
  cases qPrepend s.q r.id with
  | error e => rfl
  | ok q => rfl

theorem QState.sized_remove (id : ObjId) : (s.sized n).remove id = (s.remove id).map (fun p => (p.1, p.2.sized n)) := by
  unfold QState.remove
  show (match s.base.lookup id with | none => _ | some _ => _) = _
  cases s.base.lookup id with
  | none => rfl
  | some o =>
    show (qRemove s.q id >>= fun q' => (s.base.sized n).removeObjBase id >>= fun b' => _) = _
    rw [Base.sized_removeObjBase]
    cases qRemove s.q id with
    | error e => rfl
    | ok q =>
      cases s.base.removeObjBase id with
      | error e => rfl
      | ok b => rfl

theorem QState.sized_evictTail : (s.sized n).evictTail = s.evictTail.map (fun x => x.sized n) := by
  unfold QState.evictTail
  show (qTail s.q >>= fun v => (s.base.sized n).evictBase v >>= fun b' => _) = _
  cases qTail s.q with
  | error e => rfl
  | ok q =>
    show ((s.base.sized n).evictBase q >>= fun b' => _) = _
    rw [Base.sized_evictBase, Res.bind_ok]
    cases s.base.evictBase q with
    | error e => rfl
    | ok b => rfl

end

/-- the state of FIFO and LRU with another `cache_t` part -/
abbrev QState.setB (s : QState μ) (b : Base μ) : QState μ := { s with base := b }

theorem FIFO.blind : Blind FIFO.algo QState.base QState.setB FIFO.toEvict where
  set_set := fun _ _ _ => rfl
  set_base := fun _ => rfl
  base_set := fun _ _ => rfl
  find := fun s r u n => by
    show FIFO.find (s.sized n) r u = (FIFO.find s r u).map _
    unfold FIFO.find
    show Except.ok (((s.base.sized n).findBase r u).1.isSome, _) = _
    simp only [QState.sized, Base.sized_findBase]
    rfl
  insert := fun s r n => s.sized_insert n () r
  evict := fun s _ n => s.sized_evictTail n
  remove := fun s id n => s.sized_remove n id
  toEvict := fun _ _ => rfl

theorem LRU.blind : Blind LRU.algo QState.base QState.setB LRU.toEvict where
  set_set := fun _ _ _ => rfl
  set_base := fun _ => rfl
  base_set := fun _ _ => rfl
  find := fun s r u n => by
    show LRU.find (s.sized n) r u = (LRU.find s r u).map _
    unfold LRU.find
    simp only [QState.sized, Base.sized_findBase]
    cases s.base.findBase r u with
    | mk o b =>
      cases o with
      | none => rfl
      | some o =>
        cases u with
        | false => rfl
        | true =>
          show (qMoveToHead s.q r.id >>= fun q' => _) = _
          cases qMoveToHead s.q r.id with
          | error e => rfl
          | ok q => rfl
  insert := fun s r n => s.sized_insert n () r
  evict := fun s _ n => s.sized_evictTail n
  remove := fun s id n => s.sized_remove n id
  toEvict := fun _ _ => rfl

/-! ### Clock -/

namespace Clock

def setB (s : State) (b : Base Nat) : State := { s with base := b }
def sized (s : State) (n : Nat) : State := { s with base := s.base.sized n }

theorem sized_scan (n : Nat) : ∀ k s, scan k (sized s n) = (scan k s).map (fun p => (p.1, sized p.2 n)) := by
  intro k
  induction k with
  | zero => intro s; rfl
  | succ k ih =>
    intro s
    unfold scan
    show (qTail s.q >>= fun id => _) = _
    cases qTail s.q with
    | error e => rfl
    | ok id =>
      simp only [Res.bind_ok]
      show (match s.base.lookup id with | none => _ | some _ => _) = _
      cases s.base.lookup id with
      | none => rfl
      | some o =>
        simp only
        split
        · show (qMoveToHead s.q id >>= fun q' => _) = _
          cases qMoveToHead s.q id with
          | error e => rfl
          | ok q =>
            simp only [Res.bind_ok]
            exact ih { s with base := s.base.modify id (fun o => { o with mt := o.mt - 1 }), q := q, nRew := s.nRew + 1, byteRew := s.byteRew + o.size }
        · rfl

theorem sized_evict (s : State) (n : Nat) : evict (sized s n) = (evict s).map (fun x => sized x n) := by
  unfold evict
  show (scan (totalFreq s + 1) (sized s n) >>= fun p => _) = _
  rw [sized_scan]
  cases scan (totalFreq s + 1) s with
  | error e => rfl
  | ok p =>
    show (qRemove p.2.q p.1 >>= fun q' => (p.2.base.sized n).evictBase p.1 >>= fun b' => _) = _
    rw [Base.sized_evictBase, Res.bind_ok]
    cases qRemove p.2.q p.1 with
    | error e => rfl
    | ok q =>
      simp only [Res.bind_ok]
      cases p.2.base.evictBase p.1 with
      | error e => rfl
      | ok b => rfl

theorem sized_toEvict (s : State) (n : Nat) : toEvict (sized s n) = toEvict s := by
  have h : ∀ k m, toEvictLoop (sized s n) k m = toEvictLoop s k m := by
    intro k
    induction k with
    | zero => intro m; rfl
    | succ k ih =>
      intro m
      unfold toEvictLoop
      rw [show toEvictRound (sized s n) m = toEvictRound s m from rfl, ih]
  exact h _ _

theorem blind : Blind algo State.base setB toEvict where
  set_set := fun _ _ _ => rfl
  set_base := fun _ => rfl
  base_set := fun _ _ => rfl
  find := fun s r u n => by
    show find (sized s n) r u = (find s r u).map _
    unfold find
    simp only [sized, Base.sized_findBase]
    cases s.base.findBase r u with
    | mk o b =>
      cases o with
      | none => rfl
      | some o => cases u <;> rfl
  insert := fun s r n => by
    show insert (sized s n) r = (insert s r).map _
    unfold insert
    show (QState.insert 0 (s.qs.sized n) r >>= fun x => _) = _
    rw [QState.sized_insert]
    cases QState.insert 0 s.qs r with
    | error e => rfl
    | ok x => rfl
  evict := fun s _ n => sized_evict s n
  remove := fun s id n => by
    show remove (sized s n) id = (remove s id).map _
    unfold remove
    show ((s.qs.sized n).remove id >>= fun x => _) = _
    rw [QState.sized_remove]
    cases s.qs.remove id with
    | error e => rfl
    | ok x => rfl
  toEvict := sized_toEvict

end Clock

/-! ### Sieve -/

namespace Sieve

def setB (s : State) (b : Base Nat) : State := { s with base := b }
def sized (s : State) (n : Nat) : State := { s with base := s.base.sized n }

theorem sized_scan (n : Nat) : ∀ k s id, scan k (sized s n) id = (scan k s id).map (fun p => (p.1, sized p.2 n)) := by
  intro k
  induction k with
  | zero => intro s id; rfl
  | succ k ih =>
    intro s id
    unfold scan
    show (match s.base.lookup id with | none => _ | some _ => _) = _
    cases s.base.lookup id with
    | none => rfl
    | some o =>
      simp only
      split
      · show (match prevOf s.q id with | some _ => _ | none => _) = _
        cases prevOf s.q id with
        | some p => exact ih { s with base := s.base.modify id (fun o => { o with mt := o.mt - 1 }) } p
        | none =>
          show (qTail s.q >>= fun t => _) = (qTail s.q >>= fun t => _).map _
          cases qTail s.q with
          | error e => rfl
          | ok t => exact ih { s with base := s.base.modify id (fun o => { o with mt := o.mt - 1 }) } t
      · rfl

theorem sized_evict (s : State) (n : Nat) : evict (sized s n) = (evict s).map (fun x => sized x n) := by
  unfold evict
  show (startOf s >>= fun st => scan (fuelOf s) (sized s n) st >>= fun p => _) = _
  cases startOf s with
  | error e => rfl
  | ok st =>
    rw [Res.bind_ok, Res.bind_ok, sized_scan]
    cases scan (fuelOf s) s st with
    | error e => rfl
    | ok p =>
      show (qRemove p.2.q p.1 >>= fun q' => (p.2.base.sized n).evictBase p.1 >>= fun b' => _) = _
      rw [Base.sized_evictBase, Res.bind_ok]
      cases qRemove p.2.q p.1 with
      | error e => rfl
      | ok q =>
        simp only [Res.bind_ok]
        cases p.2.base.evictBase p.1 with
        | error e => rfl
        | ok b => rfl

theorem sized_toEvict (s : State) (n : Nat) : toEvict (sized s n) = toEvict s := by
  have h : ∀ k m, toEvictLoop (sized s n) k m = toEvictLoop s k m := by
    intro k
    induction k with
    | zero => intro m; rfl
    | succ k ih =>
      intro m
      unfold toEvictLoop
      rw [show toEvictWithFreq (sized s n) m = toEvictWithFreq s m from rfl, ih]
  exact h _ _

theorem blind : Blind algo State.base setB toEvict where
  set_set := fun _ _ _ => rfl
  set_base := fun _ => rfl
  base_set := fun _ _ => rfl
  find := fun s r u n => by
    show find (sized s n) r u = (find s r u).map _
    unfold find
    simp only [sized, Base.sized_findBase]
    cases s.base.findBase r u with
    | mk o b =>
      cases o with
      | none => rfl
      | some o => cases u <;> rfl
  insert := fun s r n => by
    show insert (sized s n) r = (insert s r).map _
    unfold insert
    show (QState.insert 0 (s.qs.sized n) r >>= fun x => _) = _
    rw [QState.sized_insert]
    cases QState.insert 0 s.qs r with
    | error e => rfl
    | ok x => rfl
  evict := fun s _ n => sized_evict s n
  remove := fun s id n => by
    show remove (sized s n) id = (remove s id).map _
    unfold remove
    show (match s.base.lookup id with | none => _ | some _ => _) = _
    cases s.base.lookup id with
    | none => rfl
    | some o =>
      show (qRemove s.q id >>= fun q' => (s.base.sized n).removeObjBase id >>= fun b' => _) = _
      rw [Base.sized_removeObjBase]
      show _ = (qRemove s.q id >>= fun q' => s.base.removeObjBase id >>= fun b' => _).map _
      cases qRemove s.q id with
      | error e => rfl
      | ok q =>
        simp only [Res.bind_ok]
        cases s.base.removeObjBase id with
        | error e => rfl
        | ok b => rfl
  toEvict := sized_toEvict

end Sieve

/-! ### The instances -/

namespace S3FIFOd

/-- the invariants of the main caches -/
abbrev slackQ : QState Unit → Prop := Slack QState.base QState.setB (fun n => QInv n 0)
abbrev slackClock (mf : Nat) : Clock.State → Prop := Slack Clock.State.base Clock.setB (fun n => Clock.Inv n 0 mf)
abbrev slackSieve : Sieve.State → Prop := Slack Sieve.State.base Sieve.setB (fun n => Sieve.Inv n 0)

theorem QInv.grow {n m : Nat} {s : QState μ} (h : QInv n 0 s) (hle : n ≤ m) : QInv m 0 (s.sized m) := ⟨h.base.grow hle, h.q⟩

theorem loose_fifo : Loose onFIFO (fun s => s.base.cached) slackQ :=
  Loose.ofSim (fun n => FIFO.spec n 0) (fun n => FIFO.sim n 0) FIFO.blind (fun h hle => QInv.grow h hle) (fun h hne _ => FIFO.toEvict_spec h hne)
    (fun _ h => zeroFreq_qinsert h)

theorem loose_lru : Loose onLRU (fun s => s.base.cached) slackQ :=
  Loose.ofSim (fun n => LRU.spec n 0) (fun n => LRU.sim n 0) LRU.blind (fun h hle => QInv.grow h hle) (fun h hne _ => LRU.toEvict_spec h hne)
    (fun _ h => zeroFreq_qinsert h)

theorem loose_clock (mf : Nat) : Loose onClock (fun s => s.base.cached) (slackClock mf) :=
  Loose.ofSim (fun n => Clock.spec n 0 mf) (fun n => Clock.sim n 0 mf) Clock.blind (fun h hle => ⟨QInv.grow h.q hle, h.mf⟩)
    (fun h hne _ => Clock.toEvict_spec h hne)
    (fun {s s'} r h => by
      have h : Clock.insert s r = .ok s' := h
      unfold Clock.insert at h
      obtain ⟨q, h1, h2⟩ := Res.bind_eq_ok.1 h
      cases h2
      exact zeroFreq_qinsert (s' := q) h1)

theorem loose_sieve : Loose onSieve (fun s => s.base.cached) slackSieve :=
  Loose.ofSim (fun n => Sieve.spec n 0) (fun n => Sieve.sim n 0) Sieve.blind (fun h hle => ⟨QInv.grow h.q hle, h.hand⟩)
    (fun h hne _ => Sieve.toEvict_spec h hne)
    (fun {s s'} r h => by
      have h : Sieve.insert s r = .ok s' := h
      unfold Sieve.insert at h
      obtain ⟨q, h1, h2⟩ := Res.bind_eq_ok.1 h
      cases h2
      exact zeroFreq_qinsert (s' := q) h1)

theorem slackQ_init (cs : Nat) : slackQ (FIFO.init cs 0 .none) := ⟨rfl, cs, QInv.init cs 0 .none⟩
theorem slackClock_init (mf cs : Nat) : slackClock mf (Clock.init cs 0 mf .none) := ⟨rfl, cs, Clock.inv_init cs 0 mf .none⟩
theorem slackSieve_init (cs : Nat) : slackSieve (Sieve.init cs 0 .none) := ⟨rfl, cs, Sieve.inv_init cs 0 .none⟩

end S3FIFOd
end Verif
