import Verif.Proof.Queue
import Verif.Algo.LRU
import Verif.Algo.FIFO
/-!
# LRU and FIFO meet the single-`Base` obligations and simulate their textbook disciplines
-/

namespace Verif
open Spec

/-- What remains of a queue state when request counter and admission policy are ignored: the table with all object
fields, the counters, and the queue order. -/
def QState.core {μ : Type} (s : QState μ) : Quiet μ × List ObjId := (s.base.quiet, s.q)

namespace LRU

theorem find_false (s : State) (r : Req) : find s r false = .ok ((s.base.lookup r.id).isSome, s) := by
  unfold find
  rw [findBase_false]
  cases h : s.base.lookup r.id <;> simp

theorem find_hit {cs md : Nat} {s : State} {r : Req} {o : Obj Unit} (h : QInv cs md s)
    (ho : s.base.lookup r.id = some o) :
    find s r true = .ok (true, { base := s.base.modify r.id (touch r), q := r.id :: s.q.erase r.id }) := by
  simp [find, findBase_hit ho, qMoveToHead, h.mem_of_lookup ho]

theorem find_miss {s : State} {r : Req} (ho : s.base.lookup r.id = none) : find s r true = .ok (false, s) := by
  simp [find, findBase_miss ho]

theorem spec (cs md : Nat) : SBSpec algo (fun s => s.base) (fun s b => { s with base := b }) (QInv cs md) cs md where
  base_set := fun _ _ => rfl
  occ := fun _ => rfl
  nObj := fun _ => rfl
  csz := fun _ => rfl
  mdz := fun _ => rfl
  bumpEq := fun _ => rfl
  canEq := fun _ _ => rfl
  fuel := fun _ => Nat.le_succ _
  inv := fun h => h.base
  frame := fun n a h => h.frame n a
  findF := fun r _ => find_false _ r
  findHit := fun {s} r o h ho => by
    refine ⟨_, find_hit h ho, h.touchFront r ho, ?_⟩
    simp only
    rw [Base.cached_modify _ _ (touch r) (fun _ => rfl) (fun _ => rfl)]
  findMiss := fun r _ ho => find_miss ho
  evict := fun {s} r h hne _ => by
    obtain ⟨s', o, h1, h2, _, _, h5, _⟩ := h.evictTail_spec hne
    exact ⟨s', _, h1, h2, h5⟩
  insert := fun {s} r h hn hroom hsz => by
    obtain ⟨s', h1, h2, h3, h4⟩ := h.insert () r hn hroom hsz
    exact ⟨s', h1, h2, by rw [h3, cached_insertBase]⟩
  removeMiss := fun _ {_} id _ hn => QInv.remove_miss hn
  removeHit := fun _ {s} id o h ho => by
    obtain ⟨s', h1, h2, h3, _⟩ := h.remove_spec ho
    exact ⟨s', h1, h2, h3⟩

theorem sim (cs md : Nat) : Sim algo (fun s => s.base) (fun s b => { s with base := b }) (QInv cs md) cs md
    lru QState.order where
  contents := fun h => h.order_perm
  frame := fun _ _ _ => rfl
  findHit := fun {s s'} r o h ho hf => by
    have hf' : find s r true = .ok (true, s') := hf
    rw [find_hit h ho] at hf'
    cases hf'
    exact ⟨h.order_toFront (h.mem_of_lookup ho) (fun i => szOf_modify _ _ (touch r) (fun _ => rfl) (fun _ => rfl)) rfl, rfl⟩
  evict := fun {s s'} r h hne he => by
    obtain ⟨s'', o, h1, _, h3, h4, _, h6, h7⟩ := h.evictTail_spec hne
    have he' : QState.evictTail s = .ok s' := he
    rw [h1] at he'; cases he'
    exact ⟨h.order_evict h3 h4 h6, h7⟩
  insert := fun {s s'} r h hn hroom hsz hi => by
    obtain ⟨s'', h1, _, h3, h4⟩ := h.insert () r hn hroom hsz
    have hi' : QState.insert () s r = .ok s' := hi
    rw [h1] at hi'; cases hi'
    exact ⟨h.order_insert () hn h3 h4, by rw [h3]; rfl⟩
  remove := fun {s s'} id o h ho hr => by
    obtain ⟨s'', h1, _, _, h4, h5, h6⟩ := h.remove_spec ho
    have hr' : QState.remove s id = .ok (true, s') := hr
    rw [h1] at hr'; cases hr'
    exact ⟨h.order_remove h4 h5, h6⟩

theorem strong (cs md : Nat) : SBStrong algo (fun s => s.base) (QInv cs md) cs md QState.core :=
  (spec cs md).strong QState.core (fun _ _ _ => rfl)

theorem toEvict_spec {cs md : Nat} {s : State} (hi : QInv cs md s) (hne : s.base.tbl ≠ []) :
    ∃ id n s', toEvict s = some id ∧ s.evictTail = .ok s' ∧ s.base.cached.Perm ((id, n) :: s'.base.cached) := by
  obtain ⟨s', o, h1, _, _, h4, h5, _⟩ := hi.evictTail_spec hne
  exact ⟨o.id, o.size, s', by simp [toEvict, h4], h1, h5⟩

end LRU

namespace FIFO

theorem find_false (s : State) (r : Req) : find s r false = .ok ((s.base.lookup r.id).isSome, s) := by
  unfold find
  rw [findBase_false]

theorem find_hit {s : State} {r : Req} {o : Obj Unit} (ho : s.base.lookup r.id = some o) :
    find s r true = .ok (true, { base := s.base.modify r.id (touch r), q := s.q }) := by
  simp [find, findBase_hit ho]

theorem find_miss {s : State} {r : Req} (ho : s.base.lookup r.id = none) : find s r true = .ok (false, s) := by
  simp [find, findBase_miss ho]

theorem spec (cs md : Nat) : SBSpec algo (fun s => s.base) (fun s b => { s with base := b }) (QInv cs md) cs md where
  base_set := fun _ _ => rfl
  occ := fun _ => rfl
  nObj := fun _ => rfl
  csz := fun _ => rfl
  mdz := fun _ => rfl
  bumpEq := fun _ => rfl
  canEq := fun _ _ => rfl
  fuel := fun _ => Nat.le_refl _
  inv := fun h => h.base
  frame := fun n a h => h.frame n a
  findF := fun r _ => find_false _ r
  findHit := fun {s} r o h ho => by
    refine ⟨_, find_hit ho, h.touchOnly r.id (touch r) (fun _ => rfl) (fun _ => rfl), ?_⟩
    simp only
    rw [Base.cached_modify _ _ (touch r) (fun _ => rfl) (fun _ => rfl)]
  findMiss := fun r _ ho => find_miss ho
  evict := fun {s} r h hne _ => by
    obtain ⟨s', o, h1, h2, _, _, h5, _⟩ := h.evictTail_spec hne
    exact ⟨s', _, h1, h2, h5⟩
  insert := fun {s} r h hn hroom hsz => by
    obtain ⟨s', h1, h2, h3, h4⟩ := h.insert () r hn hroom hsz
    exact ⟨s', h1, h2, by rw [h3, cached_insertBase]⟩
  removeMiss := fun _ {_} id _ hn => QInv.remove_miss hn
  removeHit := fun _ {s} id o h ho => by
    obtain ⟨s', h1, h2, h3, _⟩ := h.remove_spec ho
    exact ⟨s', h1, h2, h3⟩

theorem sim (cs md : Nat) : Sim algo (fun s => s.base) (fun s b => { s with base := b }) (QInv cs md) cs md
    fifo QState.order where
  contents := fun h => h.order_perm
  frame := fun _ _ _ => rfl
  findHit := fun {s s'} r o h ho hf => by
    have hf' : find s r true = .ok (true, s') := hf
    rw [find_hit ho] at hf'
    cases hf'
    refine ⟨?_, rfl⟩
    exact orderOf_congr (fun i _ => szOf_modify _ _ (touch r) (fun _ => rfl) (fun _ => rfl))
  evict := fun {s s'} r h hne he => by
    obtain ⟨s'', o, h1, _, h3, h4, _, h6, h7⟩ := h.evictTail_spec hne
    have he' : QState.evictTail s = .ok s' := he
    rw [h1] at he'; cases he'
    exact ⟨h.order_evict h3 h4 h6, h7⟩
  insert := fun {s s'} r h hn hroom hsz hi => by
    obtain ⟨s'', h1, _, h3, h4⟩ := h.insert () r hn hroom hsz
    have hi' : QState.insert () s r = .ok s' := hi
    rw [h1] at hi'; cases hi'
    exact ⟨h.order_insert () hn h3 h4, by rw [h3]; rfl⟩
  remove := fun {s s'} id o h ho hr => by
    obtain ⟨s'', h1, _, _, h4, h5, h6⟩ := h.remove_spec ho
    have hr' : QState.remove s id = .ok (true, s') := hr
    rw [h1] at hr'; cases hr'
    exact ⟨h.order_remove h4 h5, h6⟩

theorem strong (cs md : Nat) : SBStrong algo (fun s => s.base) (QInv cs md) cs md QState.core :=
  (spec cs md).strong QState.core (fun _ _ _ => rfl)

theorem toEvict_spec {cs md : Nat} {s : State} (hi : QInv cs md s) (hne : s.base.tbl ≠ []) :
    ∃ id n s', toEvict s = some id ∧ s.evictTail = .ok s' ∧ s.base.cached.Perm ((id, n) :: s'.base.cached) := by
  obtain ⟨s', o, h1, _, _, h4, h5, _⟩ := hi.evictTail_spec hne
  exact ⟨o.id, o.size, s', by simp [toEvict, h4], h1, h5⟩

end FIFO
end Verif
