import Verif.Algo.LRUProb
import Verif.Algo.Nop
import Verif.Spec.LRUProb
import Verif.Proof.LRU
/-!
# LRU_Prob on zeroed memory
-/

namespace Verif.LRUProb
open Verif Spec

structure Inv (cs md n : Nat) (s : State) : Prop where
  q : QInv cs md s.qs
  junk : s.junk = false
  thr : s.threshold = n

/-- Order and draws to come. -/
def view (s : State) : Contents × List Nat := (s.qs.order, s.picks)

def core (s : State) : Quiet Unit × List ObjId × List Nat := (s.base.quiet, s.q, s.picks)

/-- The update of a hit object: by `cache_find_base` and again by `LRU_Prob_find`. -/
def touch2 (r : Req) : Obj Unit → Obj Unit := fun o => { o with miscFreq := o.miscFreq + 1, miscNext := r.next }

theorem inv_init (cs md n : Nat) (adm : Adm) (picks : List Nat) : Inv cs md n (init cs md adm false n picks) :=
  ⟨QInv.init cs md adm, rfl, rfl⟩

theorem find_false (s : State) (r : Req) : find s r false = .ok ((s.base.lookup r.id).isSome, s) := by
  unfold find
  rw [findBase_false]
  cases h : s.base.lookup r.id <;> simp

theorem find_miss {s : State} {r : Req} (ho : s.base.lookup r.id = none) : find s r true = .ok (false, s) := by
  simp [find, findBase_miss ho]

variable {cs md n : Nat} {s : State}

theorem find_hit (hn : 0 < n) {r : Req} {o : Obj Unit} (h : Inv cs md n s) (ho : s.base.lookup r.id = some o) :
    find s r true = .ok (true, { s with base := (s.base.modify r.id (touch r)).modify r.id (touch2 r), q := if s.picks.headD 0 % n = 0 then r.id :: s.q.erase r.id else s.q, picks := s.picks.tail }) := by
  have hm : r.id ∈ s.q := h.q.mem_of_lookup ho
  have h0 : ¬s.threshold = 0 := by rw [h.thr]; omega
  have h0' : ¬n = 0 := by omega
  by_cases hp : s.picks.headD 0 % n = 0
  · simp only [find, findBase_hit ho, if_true, if_neg h0, heads, h.junk, h.thr, if_pos hp, qMoveToHead, if_pos hm]
    rw [if_neg h0']
    rfl
  · simp only [find, findBase_hit ho, if_true, h.thr, if_neg hp, if_neg h0']
    rfl

theorem inv_hit {r : Req} {o : Obj Unit} (h : Inv cs md n s) (ho : s.base.lookup r.id = some o) (q' : List ObjId) (p' : List Nat)
    (hq : q'.Perm s.q) :
    Inv cs md n { s with base := (s.base.modify r.id (touch r)).modify r.id (touch2 r), q := q', picks := p' } := by
  refine ⟨⟨(h.q.base.modify r.id (touch r) (fun _ => rfl) (fun _ => rfl)).modify r.id (touch2 r) (fun _ => rfl) (fun _ => rfl), ?_⟩, h.junk, h.thr⟩
  show q'.Perm _
  have e : ((s.base.modify r.id (touch r)).modify r.id (touch2 r)).tbl.map (·.id) = s.base.tbl.map (·.id) := by
    rw [Base.ids_modify _ _ (touch2 r) (fun _ => rfl), Base.ids_modify _ _ (touch r) (fun _ => rfl)]
  refine (hq.trans h.q.q).trans ?_
  have : (s.qs.base.tbl.map (·.id)) = s.base.tbl.map (·.id) := rfl
  rw [this, ← e]
  exact List.Perm.refl _

theorem q_perm (h : Inv cs md n s) {r : Req} {o : Obj Unit} (ho : s.base.lookup r.id = some o) :
    (if s.picks.headD 0 % n = 0 then r.id :: s.q.erase r.id else s.q).Perm s.q := by
  split
  · exact (List.perm_cons_erase (h.q.mem_of_lookup ho)).symm
  · exact List.Perm.refl _

theorem spec (cs md n : Nat) (hn : 0 < n) : SBSpec algo (fun s => s.base) (fun s b => { s with base := b }) (Inv cs md n) cs md where
  base_set := fun _ _ => rfl
  occ := fun _ => rfl
  nObj := fun _ => rfl
  csz := fun _ => rfl
  mdz := fun _ => rfl
  bumpEq := fun _ => rfl
  canEq := fun _ _ => rfl
  fuel := fun _ => Nat.le_refl _
  inv := fun h => h.q.base
  frame := fun m a h => ⟨h.q.frame m a, h.junk, h.thr⟩
  findF := fun r _ => find_false _ r
  findHit := fun {s} r o h ho => by
    refine ⟨_, find_hit hn h ho, inv_hit h ho _ _ (q_perm h ho), ?_⟩
    simp only
    rw [Base.cached_modify _ _ (touch2 r) (fun _ => rfl) (fun _ => rfl), Base.cached_modify _ _ (touch r) (fun _ => rfl) (fun _ => rfl)]
  findMiss := fun r _ ho => find_miss ho
  evict := fun {s} r h hne _ => by
    obtain ⟨s', o, h1, h2, _, _, h5, _⟩ := h.q.evictTail_spec hne
    exact ⟨{ s with base := s'.base, q := s'.q }, _, by simp [algo, evict, heads, h.junk, h1], ⟨h2, h.junk, h.thr⟩, h5⟩
  insert := fun {s} r h hn hroom hsz => by
    obtain ⟨s', h1, h2, h3, h4⟩ := h.q.insert () r hn hroom hsz
    have h3' : s'.base = s.base.insertBase () r := h3
    exact ⟨{ s with base := s'.base, q := s'.q }, by simp [algo, insert, heads, h.junk, h1], ⟨h2, h.junk, h.thr⟩, by simp only; rw [h3', cached_insertBase]⟩
  removeMiss := fun _ {_} id _ hl => by simp [algo, remove, hl]
  removeHit := fun _ {s} id o h ho => by
    obtain ⟨s', h1, h2, h3, _⟩ := h.q.remove_spec ho
    exact ⟨{ s with base := s'.base, q := s'.q }, by simp [algo, remove, heads, h.junk, ho, h1], ⟨h2, h.junk, h.thr⟩, h3⟩

theorem sim (cs md n : Nat) (hn : 0 < n) : Sim algo (fun s => s.base) (fun s b => { s with base := b }) (Inv cs md n) cs md
    (lruProb n) view where
  contents := fun h => h.q.order_perm
  frame := fun _ _ _ => rfl
  findHit := fun {s s'} r o h ho hf => by
    have hf' : find s r true = .ok (true, s') := hf
    rw [find_hit hn h ho] at hf'
    cases hf'
    refine ⟨?_, rfl⟩
    have hsz : ∀ i, ((s.base.modify r.id (touch r)).modify r.id (touch2 r)).szOf i = s.base.szOf i := fun i => by
      rw [szOf_modify _ _ (touch2 r) (fun _ => rfl) (fun _ => rfl), szOf_modify _ _ (touch r) (fun _ => rfl) (fun _ => rfl)]
    simp only [view, lruProb]
    congr 1
    split
    · exact h.q.order_toFront (s' := ⟨_, _⟩) (h.q.mem_of_lookup ho) hsz rfl
    · exact orderOf_congr (fun i _ => hsz i)
  evict := fun {s s'} r h hne he => by
    obtain ⟨s'', o, h1, _, h3, h4, _, h6, h7⟩ := h.q.evictTail_spec hne
    have he' : evict s = .ok s' := he
    simp only [evict, heads, h.junk, Bool.false_eq_true, if_false, h1, Res.bind_ok] at he'
    cases he'
    exact ⟨by simp only [view, lruProb]; rw [show State.qs _ = s'' from rfl, h.q.order_evict h3 h4 h6], h7⟩
  insert := fun {s s'} r h hl hroom hsz hi => by
    obtain ⟨s'', h1, _, h3, h4⟩ := h.q.insert () r hl hroom hsz
    have hi' : insert s r = .ok s' := hi
    simp only [insert, heads, h.junk, Bool.false_eq_true, if_false, h1, Res.bind_ok] at hi'
    cases hi'
    refine ⟨by simp only [view, lruProb]; rw [show State.qs _ = s'' from rfl, h.q.order_insert () hl h3 h4], ?_⟩
    simp only
    rw [h3]
    rfl
  remove := fun {s s'} id o h ho hr => by
    obtain ⟨s'', h1, _, _, h4, h5, h6⟩ := h.q.remove_spec ho
    have hr' : remove s id = .ok (true, s') := hr
    simp only [remove, ho, heads, h.junk, Bool.false_eq_true, if_false, h1, Res.bind_ok] at hr'
    cases hr'
    exact ⟨by simp only [view, lruProb]; rw [show State.qs _ = s'' from rfl, h.q.order_remove h4 h5], h6⟩

theorem strong (cs md n : Nat) (hn : 0 < n) : SBStrong algo (fun s => s.base) (Inv cs md n) cs md core :=
  (spec cs md n hn).strong core (fun _ _ _ => rfl)

theorem toEvict_spec (hi : Inv cs md n s) (hne : s.base.tbl ≠ []) :
    ∃ id m s', toEvict s = some id ∧ evict s = .ok s' ∧ s.base.cached.Perm ((id, m) :: s'.base.cached) := by
  obtain ⟨s', o, h1, _, _, h4, h5, _⟩ := hi.q.evictTail_spec hne
  have h4' : s.q = s'.q ++ [o.id] := h4
  exact ⟨o.id, o.size, { s with base := s'.base, q := s'.q }, by simp [toEvict, h4'], by simp [evict, heads, hi.junk, h1], h5⟩

end Verif.LRUProb

namespace Verif.Nop
open Verif Spec

/-- Nothing is ever cached. -/
structure Inv (cs : Nat) (s : State) : Prop where
  tbl : s.tbl = []
  occ : s.occ = 0
  nObj : s.nObj = 0
  cs : s.cacheSize = cs
  md : s.objMd = 0

theorem inv_init (cs : Nat) (adm : Adm) : Inv cs (init cs adm) := ⟨rfl, rfl, rfl, rfl, rfl⟩

variable {cs : Nat} {s : State}

theorem get_spec (h : Inv cs s) (r : Req) : ∃ s', algo.get s r = .ok (false, s') ∧ Inv cs s' := by
  have hf : algo.find (algo.bump s) r true = .ok (false, algo.bump s) := rfl
  have hb : Inv cs (algo.bump s) := ⟨h.tbl, h.occ, h.nObj, h.cs, h.md⟩
  have hc : algo.canInsert (algo.bump s) r = (admitsBase (Base.bump s) r, { Base.bump s with adm := (s.adm.admit r).2 }) := canInsertDefault_eq _ r
  have h2 : Inv cs ({ Base.bump s with adm := (s.adm.admit r).2 } : State) := ⟨h.tbl, h.occ, h.nObj, h.cs, h.md⟩
  cases had : admitsBase (Base.bump s) r with
  | false => rw [had] at hc; exact ⟨_, get_reject hf hc, h2⟩
  | true =>
    rw [had] at hc
    have hfit : r.size ≤ cs := by
      have e : admitsBase (Base.bump s) r = ((s.adm.admit r).1 && decide (r.size + s.objMd ≤ s.cacheSize)) := rfl
      rw [e, h.md, h.cs] at had
      simp at had
      exact had.2
    have hm : ∀ n, algo.evictLoop r n ({ Base.bump s with adm := (s.adm.admit r).2 } : State) = .ok { Base.bump s with adm := (s.adm.admit r).2 } := by
      intro n
      have : algo.mustEvict ({ Base.bump s with adm := (s.adm.admit r).2 } : State) r = false := by
        unfold Algo.mustEvict
        show decide (s.occ + (r.size : Int) + (s.objMd : Int) > (s.cacheSize : Int)) = false
        rw [h.occ, h.md, h.cs]
        simp
        omega
      cases n <;> simp [Algo.evictLoop, this]
    exact ⟨_, get_accept hf hc (hm _) rfl, h2⟩

theorem step_spec (h : Inv cs s) (op : Op) : ∃ b s', algo.step s op = .ok (b, s') ∧ Inv cs s' ∧ ((∀ r, op ≠ .insert r) → b = false) := by
  cases op with
  | get r => obtain ⟨s', h1, h2⟩ := get_spec h r; exact ⟨false, s', h1, h2, fun _ => rfl⟩
  | find r u => exact ⟨false, s, rfl, h, fun _ => rfl⟩
  | remove id =>
    have : s.lookup id = none := by simp [Base.lookup, h.tbl]
    exact ⟨false, s, by simp [Algo.step, algo, remove, this], h, fun _ => rfl⟩
  | evict r =>
    have : algo.nObj s = 0 := h.nObj
    exact ⟨false, s, by simp [Algo.step, this], h, fun _ => rfl⟩
  | insert r =>
    simp only [Algo.step]
    have hf : algo.find s r false = .ok (false, s) := rfl
    rw [hf]
    simp only [Res.bind_ok, true_and]
    split
    · exact ⟨true, s, rfl, h, fun hne => absurd rfl (hne r)⟩
    · exact ⟨false, s, rfl, h, fun _ => rfl⟩

theorem run_spec : ∀ (ops : List Op) (s : State), Inv cs s → ∃ out s', Reaches algo s ops out s' ∧ Inv cs s' ∧
    ((∀ r, Op.insert r ∉ ops) → ∀ b ∈ out, b = false) := by
  intro ops
  induction ops with
  | nil => intro s h; exact ⟨[], s, rfl, h, by simp⟩
  | cons op ops ih =>
    intro s h
    obtain ⟨b, s1, h1, h2, h3⟩ := step_spec h op
    obtain ⟨out, s', g1, g2, g3⟩ := ih s1 h2
    refine ⟨b :: out, s', ?_, g2, ?_⟩
    · unfold Reaches at g1 ⊢
      simp [Algo.run, h1, g1]
    · intro hno b' hb'
      rcases List.mem_cons.1 hb' with rfl | hb'
      · exact h3 (fun r e => hno r (by simp [e]))
      · exact g3 (fun r hr => hno r (by simp [hr])) b' hb'

end Verif.Nop
