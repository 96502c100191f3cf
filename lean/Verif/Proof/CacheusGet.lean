import Verif.Algo.Cacheus
import Verif.Base.Contract
/-!
# `Cacheus_get` is `cache_get_base` followed by the adaptation of the learning rate

The model of Cacheus.c runs `endGet` at the end of each way through `cache_get_base`.  Here: that is the same as running it once afterwards.
-/

namespace Verif.Cacheus
open Verif

variable {A : Arith}

/-- the state inside (`true`) or outside (`false`) of `Cacheus_get` -/
def fl (b : Bool) (s : State A) : State A := { s with inGet := b }

theorem fl_fl (b c : Bool) (s : State A) : fl b (fl c s) = fl b s := rfl

theorem fl_self {b : Bool} {s : State A} (h : s.inGet = b) : fl b s = s := by subst h; rfl

/-- `k` does the same inside and outside of `Cacheus_get` -/
def Flat (k : State A → Res (State A)) : Prop := ∀ b s, k (fl b s) = k s >>= fun s' => .ok (fl b s')
def Flat2 {α : Type} (k : State A → Res (α × State A)) : Prop := ∀ b s, k (fl b s) = k s >>= fun p => .ok (p.1, fl b p.2)

theorem history_flat (r : Req) : Flat (A := A) (fun s => history s r) := by
  intro b s
  simp only [history]
  show LRU.algo.remove s.lruG r.id >>= _ = _
  cases LRU.algo.remove s.lruG r.id with
  | error e => rfl
  | ok p =>
    simp only [Res.bind_ok]
    show LRU.algo.remove s.lfuG r.id >>= _ = _
    cases LRU.algo.remove s.lfuG r.id with
    | error e => rfl
    | ok q => rfl

theorem find0_flat (r : Req) (u : Bool) : Flat2 (A := A) (fun s => find0 s r u) := by
  intro b s
  simp only [find0]
  show s.lru.find r u >>= _ = _
  cases s.lru.find r u with
  | error e => rfl
  | ok p =>
    simp only [Res.bind_ok]
    show s.lfu.find r u >>= _ = _
    cases s.lfu.find r u with
    | error e => rfl
    | ok f =>
      simp only [Res.bind_ok]
      cases u with
      | false => rfl
      | true =>
        simp only [Bool.true_eq_false, if_false]
        cases p.1 with
        | true => rfl
        | false =>
          simp only [Bool.false_eq_true, if_false]
          have := history_flat (A := A) r b { s with lru := p.2, lfu := f }
          simp only at this
          rw [show ({ fl b s with lru := p.2, lfu := f } : State A) = fl b { s with lru := p.2, lfu := f } from rfl, this]
          cases history { s with lru := p.2, lfu := f } r with
          | error e => rfl
          | ok s' => rfl

theorem insert0_flat (r : Req) : Flat (A := A) (fun s => insert0 s r) := by
  intro b s
  simp only [insert0]
  show (if s.lru.canInsert r then s.lfu.insert s.lru.H r >>= _ else _) = _
  by_cases h : s.lru.canInsert r = true
  · rw [if_pos h, if_pos h]
    cases s.lfu.insert s.lru.H r with
    | error e => rfl
    | ok f =>
      simp only [Res.bind_ok]
      show s.lru.insert f r >>= _ = _
      cases s.lru.insert f r with
      | error e => rfl
      | ok p => rfl
  · rw [if_neg h, if_neg h]; rfl

theorem toEvict_flat : Flat2 (A := A) toEvict := by
  intro b s
  simp only [toEvict]
  show (if A.lruWins s.w (s.draw % 100) then .ok s.lru.toEvict else s.lfu.toEvict >>= _) >>= _ = _
  by_cases h : A.lruWins s.w (s.draw % 100) = true
  · simp only [if_pos h]; rfl
  · simp only [if_neg h]
    cases s.lfu.toEvict with
    | error e => rfl
    | ok x => rfl

theorem deref_flat (b : Bool) (s : State A) (c : Option (Place × ObjId)) : deref (fl b s) c = deref s c := by
  rcases c with _ | ⟨_ | _ | _, id⟩ <;> rfl

theorem evictChosen_flat (l f : Place × ObjId) (c : Option (Place × ObjId)) : Flat (A := A) (fun s => evictChosen s l f c) := by
  intro b s
  simp only [evictChosen, deref_flat]
  by_cases h : l.2 = f.2
  · rw [if_pos h, if_pos h]
    show s.lru.evict >>= _ = _
    cases s.lru.evict with
    | error e => rfl
    | ok x =>
      simp only [Res.bind_ok]
      show s.lfu.evict x.H >>= _ = _
      cases s.lfu.evict x.H with
      | error e => rfl
      | ok p => rfl
  · rw [if_neg h, if_neg h]
    by_cases h2 : c = some l
    · rw [if_pos h2, if_pos h2]
      cases deref s c with
      | error e => rfl
      | ok r =>
        simp only [Res.bind_ok]
        show s.lru.evict >>= _ = _
        cases s.lru.evict with
        | error e => rfl
        | ok x =>
          simp only [Res.bind_ok]
          show s.lfu.remove x.H r.id >>= _ = _
          cases s.lfu.remove x.H r.id with
          | error e => rfl
          | ok p =>
            simp only [Res.bind_ok]
            show LRU.algo.get s.lruG r >>= _ = _
            cases LRU.algo.get s.lruG r with
            | error e => rfl
            | ok q => rfl
    · rw [if_neg h2, if_neg h2]
      cases deref s c with
      | error e => rfl
      | ok r =>
        simp only [Res.bind_ok]
        show s.lru.remove r.id >>= _ = _
        cases s.lru.remove r.id with
        | error e => rfl
        | ok x =>
          simp only [Res.bind_ok]
          show s.lfu.evict x.2.H >>= _ = _
          cases s.lfu.evict x.2.H with
          | error e => rfl
          | ok p =>
            simp only [Res.bind_ok]
            show LRU.algo.get s.lfuG r >>= _ = _
            cases LRU.algo.get s.lfuG r with
            | error e => rfl
            | ok q => rfl

theorem evict_flat : Flat (A := A) evict := by
  intro b s
  unfold evict
  show s.lfu.toEvict >>= _ = _
  cases s.lfu.toEvict with
  | error e => rfl
  | ok f =>
    simp only [Res.bind_ok]
    have h1 : (if (fl b s).candVt = ((fl b s).base.nReq : Int) then (.ok ((fl b s).cand, fl b s) : Res _) else toEvict (fl b s)) =
        (if s.candVt = (s.base.nReq : Int) then (.ok (s.cand, s) : Res _) else toEvict s) >>= fun p => .ok (p.1, fl b p.2) := by
      by_cases h : s.candVt = (s.base.nReq : Int)
      · rw [if_pos h, if_pos (show (fl b s).candVt = ((fl b s).base.nReq : Int) from h)]; rfl
      · rw [if_neg h, if_neg (show ¬ (fl b s).candVt = ((fl b s).base.nReq : Int) from h)]; exact toEvict_flat b s
    rw [h1]
    cases (if s.candVt = (s.base.nReq : Int) then (.ok (s.cand, s) : Res _) else toEvict s) with
    | error e => rfl
    | ok p =>
      simp only [Res.bind_ok]
      show (match s.lru.toEvict, f with | some l, some f => _ | _, _ => _) = _
      cases s.lru.toEvict with
      | none => rfl
      | some l =>
        cases f with
        | none => rfl
        | some f =>
          simp only
          have := evictChosen_flat (A := A) l (.lfu, f) p.1 b p.2
          simp only at this
          rw [this]
          cases evictChosen p.2 l (.lfu, f) p.1 with
          | error e => rfl
          | ok s' => rfl

theorem loop_flat (r : Req) (n : Nat) : ∀ b (s : State A), (algo A).evictLoop r n (fl b s) = (plain A).evictLoop r n s >>= fun s' => .ok (fl b s') := by
  induction n with
  | zero =>
    intro b s
    unfold Algo.evictLoop
    show (if (plain A).mustEvict s r then _ else _) = _
    by_cases h : (plain A).mustEvict s r = true
    · rw [if_pos h, if_pos h]; rfl
    · rw [if_neg h, if_neg h]; rfl
  | succ n ih =>
    intro b s
    unfold Algo.evictLoop
    show (if (plain A).mustEvict s r then _ else _) = _
    by_cases h : (plain A).mustEvict s r = true
    · rw [if_pos h, if_pos h]
      show evict (fl b s) >>= _ = _
      rw [evict_flat b s]
      show _ = (evict s >>= _) >>= _
      cases evict s with
      | error e => rfl
      | ok s' => exact ih b s'
    · rw [if_neg h, if_neg h]; rfl

/-- an operation that does the same inside and outside keeps the flag -/
theorem keeps {k : State A → Res (State A)} (hk : Flat k) {b : Bool} {s s' : State A} (hs : s.inGet = b) (h : k s = .ok s') : s'.inGet = b := by
  have := hk b s
  rw [fl_self hs, h] at this
  injection this with this
  rw [this]; rfl

theorem loop_keeps (r : Req) (n : Nat) {b : Bool} : ∀ {s s' : State A}, s.inGet = b → (plain A).evictLoop r n s = .ok s' → s'.inGet = b := by
  induction n with
  | zero =>
    intro s s' hs h
    unfold Algo.evictLoop at h
    split at h
    · cases h
    · injection h with h; rw [← h]; exact hs
  | succ n ih =>
    intro s s' hs h
    unfold Algo.evictLoop at h
    split at h
    · obtain ⟨s1, h1, h2⟩ := Res.bind_eq_ok.1 h
      exact ih (keeps evict_flat hs h1) h2
    · injection h with h; rw [← h]; exact hs

theorem finish_fl {s : State A} (hs : s.inGet = false) : finish (fl true s) = endGet s := by
  unfold finish
  rw [if_pos (show (fl true s).inGet = true from rfl)]
  show endGet (fl false s) = _
  rw [fl_self hs]

/-- The model's `get` is `cache_get_base` followed by the end of `Cacheus_get`, for every state between two calls of a cache with space. -/
theorem get_eq (s : State A) (r : Req) (hg : s.inGet = false) (hc : s.base.cacheSize ≠ 0) :
    (algo A).get s r = (plain A).get s r >>= fun p => .ok (p.1, endGet p.2) := by
  unfold Algo.get
  simp only
  have hb : (algo A).bump s = fl true ((plain A).bump s) := rfl
  generalize hs1 : (plain A).bump s = s1 at *
  have hg1 : s1.inGet = false := by rw [← hs1]; exact hg
  have hc1 : s1.base.cacheSize ≠ 0 := by rw [← hs1]; exact hc
  rw [hb]
  show find (fl true s1) r true >>= _ = (find0 s1 r true >>= _) >>= _
  unfold find
  rw [if_neg (fun h => hc1 h.2)]
  have hf := find0_flat (A := A) r true true s1
  have hf' := find0_flat (A := A) r true false s1
  simp only at hf hf'
  rw [hf]
  rw [fl_self hg1] at hf'
  cases e : find0 s1 r true with
  | error e => rfl
  | ok p =>
    obtain ⟨hit, s2⟩ := p
    rw [e] at hf'
    have hg2 : s2.inGet = false := by
      injection hf' with hf'
      injection hf' with _ hf'
      rw [hf']; rfl
    simp only [Res.bind_ok]
    cases hit with
    | true =>
      simp only [Bool.and_self, if_true]
      rw [finish_fl hg2]
      rfl
    | false =>
      simp only [Bool.false_and, Bool.false_eq_true, if_false]
      have c1 : (algo A).canInsert (fl true s2) r = canInsert (fl true s2) r := rfl
      have c2 : (plain A).canInsert s2 r = canInsert0 s2 r := rfl
      rw [c1, c2]
      unfold canInsert
      have e1 : (canInsert0 (fl true s2) r).1 = (canInsert0 s2 r).1 := rfl
      have e2 : (canInsert0 (fl true s2) r).2 = fl true (canInsert0 s2 r).2 := rfl
      have hg3 : (canInsert0 s2 r).2.inGet = false := hg2
      rw [e1, e2]
      clear e1 e2 c1 c2
      generalize canInsert0 s2 r = q at *
      obtain ⟨b3, s3⟩ := q
      dsimp only at hg3 ⊢
      cases b3 with
      | false =>
        simp only [Bool.false_eq_true, if_false]
        rw [finish_fl hg3]; rfl
      | true =>
        simp only [if_true]
        show (algo A).evictLoop r ((plain A).fuel s3) (fl true s3) >>= _ = ((plain A).evictLoop r ((plain A).fuel s3) s3 >>= _) >>= _
        rw [loop_flat]
        cases e4 : (plain A).evictLoop r ((plain A).fuel s3) s3 with
        | error e => rfl
        | ok s4 =>
          have hg4 := loop_keeps r _ hg3 e4
          simp only [Res.bind_ok]
          show (insert0 (fl true s4) r >>= _) >>= _ = (insert0 s4 r >>= _) >>= _
          have hi := insert0_flat (A := A) r true s4
          simp only at hi
          rw [hi]
          cases e5 : insert0 s4 r with
          | error e => rfl
          | ok s5 =>
            have hg5 := keeps (insert0_flat r) hg4 e5
            simp only [Res.bind_ok]
            rw [finish_fl hg5]

end Verif.Cacheus
