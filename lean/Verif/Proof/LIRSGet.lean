import Verif.Algo.LIRS
import Verif.Base.Contract
/-!
# `LIRS_get` is `cache_get_base` followed by `limitStack`

The model of LIRS.c runs `limitStack` at the end of each way through `cache_get_base`.  Here: that is the same as running it once afterwards.
-/

namespace Verif.LIRS
open Verif

/-- the state inside `LIRS_get` -/
def fl (s : State) : State := { s with inGet := true }

/-- `k` does the same inside and outside of `LIRS_get` -/
def Flat (k : State → Res State) : Prop := ∀ s, k (fl s) = k s >>= fun s' => .ok (fl s')

theorem err_bind {α β : Type} (e : Fault) (f : α → Res β) : ((.error e : Res α) >>= f) = .error e := rfl

theorem pruneLoop_flat (n : Nat) : Flat (pruneLoop n) := by
  induction n with
  | zero =>
    intro s
    unfold pruneLoop
    by_cases h : s.S.q.getLast? = s.S.q.head?
    · rw [if_pos h, if_pos (show (fl s).S.q.getLast? = (fl s).S.q.head? from h)]; rfl
    · rw [if_neg h, if_neg (show ¬ (fl s).S.q.getLast? = (fl s).S.q.head? from h)]; rfl
  | succ n ih =>
    intro s
    unfold pruneLoop
    by_cases h : s.S.q.getLast? = s.S.q.head?
    · rw [if_pos h, if_pos (show (fl s).S.q.getLast? = (fl s).S.q.head? from h)]; rfl
    · rw [if_neg h, if_neg (show ¬ (fl s).S.q.getLast? = (fl s).S.q.head? from h)]
      show s.S.tailObj >>= _ = _
      cases ht : s.S.tailObj with
      | error e => rfl
      | ok o =>
        rw [Res.bind_ok, Res.bind_ok]
        by_cases hl : o.mt.isLIR = true
        · rw [if_pos hl, if_pos hl]; rfl
        · rw [if_neg hl, if_neg hl]
          by_cases hc : o.mt.inCache = false
          · rw [if_pos hc, if_pos hc]
            show (s.NH.remove o.id >>= _) >>= _ = _
            cases hn : s.NH.remove o.id with
            | error e => rfl
            | ok p =>
              simp only [Res.bind_ok]
              show s.S.evictTail >>= _ = _
              cases he : s.S.evictTail with
              | error e => rfl
              | ok S' =>
                simp only [Res.bind_ok]
                exact ih { s with NH := p.2, nonresident := if p.1 then sub64 s.nonresident o.size else s.nonresident, S := S' }
          · rw [if_neg hc, if_neg hc]
            simp only [Res.bind_ok]
            show s.S.evictTail >>= _ = _
            cases he : s.S.evictTail with
            | error e => rfl
            | ok S' =>
              simp only [Res.bind_ok]
              exact ih { s with S := S' }

theorem prune_flat : Flat prune := fun s => pruneLoop_flat _ s

theorem evictHIR_flat : Flat evictHIR := by
  intro s
  unfold evictHIR
  show s.Q.tailObj >>= _ = _
  cases ht : s.Q.tailObj with
  | error e => rfl
  | ok o =>
    simp only [Res.bind_ok]
    show s.Q.evictTail >>= _ = _
    cases he : s.Q.evictTail with
    | error e => rfl
    | ok Q' =>
      simp only [Res.bind_ok]
      show (match peek s.S o.id with | some x => _ | none => _) >>= _ = _
      cases hp : peek s.S o.id with
      | none => rfl
      | some x =>
        simp only
        show (s.NH.insert {} o.toReq >>= _) >>= _ = _
        cases hi : s.NH.insert {} o.toReq with
        | error e => rfl
        | ok N' => rfl

theorem hirLoop_flat (need n : Nat) : Flat (hirLoop need n) := by
  induction n with
  | zero =>
    intro s
    unfold hirLoop
    by_cases h : s.hirsCount + need > s.hirsLimit
    · rw [if_pos h, if_pos (show (fl s).hirsCount + need > (fl s).hirsLimit from h)]; rfl
    · rw [if_neg h, if_neg (show ¬ (fl s).hirsCount + need > (fl s).hirsLimit from h)]; rfl
  | succ n ih =>
    intro s
    unfold hirLoop
    by_cases h : s.hirsCount + need > s.hirsLimit
    · rw [if_pos h, if_pos (show (fl s).hirsCount + need > (fl s).hirsLimit from h), evictHIR_flat s]
      cases evictHIR s with
      | error e => rfl
      | ok s' => exact ih s'
    · rw [if_neg h, if_neg (show ¬ (fl s).hirsCount + need > (fl s).hirsLimit from h)]; rfl

theorem evictLIR_flat : Flat evictLIR := by
  intro s
  unfold evictLIR
  show s.S.tailObj >>= _ = _
  cases ht : s.S.tailObj with
  | error e => rfl
  | ok o =>
    simp only [Res.bind_ok]
    show s.S.evictTail >>= _ = _
    cases he : s.S.evictTail with
    | error e => rfl
    | ok S' =>
      simp only [Res.bind_ok]
      generalize hs1 : (({ s with S := S', lirsCount := sub64 s.lirsCount o.size } : State).count (-((o.size + s.base.objMd : Nat) : Int)) (-1)) = s1
      have hs1' : (({ fl s with S := S', lirsCount := sub64 (fl s).lirsCount o.size } : State).count (-((o.size + (fl s).base.objMd : Nat) : Int)) (-1)) = fl s1 := by
        rw [← hs1]; rfl
      rw [hs1']
      by_cases h : o.size ≤ s1.hirsLimit
      · rw [if_pos h, if_pos (show o.size ≤ (fl s1).hirsLimit from h)]
        show (hirLoop o.size (s1.Q.q.length + 1) (fl s1) >>= _) >>= _ = _
        rw [hirLoop_flat]
        cases hirLoop o.size (s1.Q.q.length + 1) s1 with
        | error e => rfl
        | ok s2 =>
          simp only [Res.bind_ok]
          show (s2.Q.insert ⟨false, true⟩ o.toReq >>= _) >>= _ = _
          cases s2.Q.insert ⟨false, true⟩ o.toReq with
          | error e => rfl
          | ok Q' =>
            simp only [Res.bind_ok]
            exact prune_flat (({ s2 with Q := Q', hirsCount := s2.hirsCount + o.size } : State).count ((o.size + s.base.objMd : Nat) : Int) 1)
      · rw [if_neg h, if_neg (show ¬ o.size ≤ (fl s1).hirsLimit from h)]
        simp only [Res.bind_ok]
        exact prune_flat s1

theorem lirLoop_flat (inS : Bool) (id : ObjId) (n : Nat) : ∀ s, lirLoop inS id n (fl s) = lirLoop inS id n s >>= fun x => .ok (x.1, fl x.2) := by
  induction n with
  | zero => intro s; rfl
  | succ n ih =>
    intro s
    unfold lirLoop
    show (match peek (if inS then s.S else s.Q) id with | none => _ | some o => _) = _
    cases peek (if inS then s.S else s.Q) id with
    | none => rfl
    | some o =>
      simp only
      by_cases h : s.lirsCount + o.size > s.lirsLimit
      · rw [if_pos h, if_pos (show (fl s).lirsCount + o.size > (fl s).lirsLimit from h), evictLIR_flat s]
        cases evictLIR s with
        | error e => rfl
        | ok s' => exact ih s'
      · rw [if_neg h, if_neg (show ¬ (fl s).lirsCount + o.size > (fl s).lirsLimit from h)]; rfl

theorem hitInS_flat (id : ObjId) (q : Option (Obj Meta)) : Flat (fun s => hitInS s id q) := by
  intro s
  simp only [hitInS]
  cases q with
  | none =>
    simp only [Res.bind_ok]
    show lirLoop true id (s.S.q.length + 1) (fl s) >>= _ = _
    rw [lirLoop_flat]
    cases lirLoop true id (s.S.q.length + 1) s with
    | error e => rfl
    | ok x => rfl
  | some o =>
    simp only
    show (s.Q.remove o.id >>= _) >>= _ = _
    cases s.Q.remove o.id with
    | error e => rfl
    | ok p =>
      simp only [Res.bind_ok]
      generalize hs1 : (({ s with Q := p.2, hirsCount := sub64 s.hirsCount o.size } : State).count (-(o.size : Int)) (-1)) = s1
      have hs1' : (({ fl s with Q := p.2, hirsCount := sub64 (fl s).hirsCount o.size } : State).count (-(o.size : Int)) (-1)) = fl s1 := by
        rw [← hs1]; rfl
      rw [hs1']
      show lirLoop true id (s1.S.q.length + 1) (fl s1) >>= _ = _
      rw [lirLoop_flat]
      cases lirLoop true id (s1.S.q.length + 1) s1 with
      | error e => rfl
      | ok x => rfl

theorem hitInQ_flat (r : Req) : Flat (fun s => hitInQ s r) := by
  intro s
  simp only [hitInQ]
  show lirLoop false r.id (s.S.q.length + 1) (fl s) >>= _ = _
  rw [lirLoop_flat]
  cases lirLoop false r.id (s.S.q.length + 1) s with
  | error e => rfl
  | ok x =>
    simp only [Res.bind_ok]
    show x.2.S.insert ⟨false, true⟩ r >>= _ = _
    cases x.2.S.insert ⟨false, true⟩ r with
    | error e => rfl
    | ok S' => rfl

/-- the same for functions that answer -/
def Flat2 (k : State → Res (Bool × State)) : Prop := ∀ s, k (fl s) = k s >>= fun x => .ok (x.1, fl x.2)

theorem find0_flat (r : Req) (u : Bool) : Flat2 (fun s => find0 s r u) := by
  intro s
  simp only [find0]
  show s.S.findLRU r u >>= _ = _
  cases s.S.findLRU r u with
  | error e => rfl
  | ok a =>
    simp only [Res.bind_ok]
    show s.Q.findLRU r u >>= _ = _
    cases s.Q.findLRU r u with
    | error e => rfl
    | ok b =>
      simp only [Res.bind_ok]
      obtain ⟨a1, a2⟩ := a
      obtain ⟨b1, b2⟩ := b
      simp only
      generalize hs1 : ({ s with S := a2, Q := b2 } : State) = s1
      have hs1' : ({ fl s with S := a2, Q := b2 } : State) = fl s1 := by rw [← hs1]; rfl
      rw [hs1']
      cases a1 with
      | some o =>
        simp only
        by_cases h1 : o.mt.isLIR = true
        · rw [if_pos h1, if_pos h1, prune_flat]
          cases prune s1 with
          | error e => rfl
          | ok s' => rfl
        · rw [if_neg h1, if_neg h1]
          by_cases h2 : o.mt.inCache = true
          · rw [if_pos h2, if_pos h2, show hitInS (fl s1) o.id b1 = hitInS s1 o.id b1 >>= fun s' => .ok (fl s') from hitInS_flat o.id b1 s1]
            cases hitInS s1 o.id b1 with
            | error e => rfl
            | ok s' => rfl
          · rw [if_neg h2, if_neg h2]; rfl
      | none =>
        cases b1 with
        | none => rfl
        | some o =>
          simp only
          by_cases h2 : o.mt.inCache = true
          · rw [if_pos h2, if_pos h2, show hitInQ (fl s1) o.toReq = hitInQ s1 o.toReq >>= fun s' => .ok (fl s') from hitInQ_flat o.toReq s1]
            cases hitInQ s1 o.toReq with
            | error e => rfl
            | ok s' => rfl
          · rw [if_neg h2, if_neg h2]; rfl

theorem insertHIR_flat (r : Req) : Flat (fun s => insertHIR s r) := by
  intro s
  simp only [insertHIR]
  show s.S.insert ⟨false, true⟩ r >>= _ = _
  cases s.S.insert ⟨false, true⟩ r with
  | error e => rfl
  | ok S' =>
    simp only [Res.bind_ok]
    show s.Q.insert ⟨false, true⟩ r >>= _ = _
    cases s.Q.insert ⟨false, true⟩ r with
    | error e => rfl
    | ok Q' => rfl

theorem insert0_flat (r : Req) : Flat (fun s => insert0 s r) := by
  intro s
  simp only [insert0]
  show (match peek s.S r.id, peek s.Q r.id with | some o, _ => _ | none, some o => _ | none, none => _) = _
  cases peek s.S r.id with
  | some o =>
    simp only
    by_cases h : o.mt.isLIR = false ∧ o.mt.inCache = false
    · rw [if_pos h, if_pos h]; rfl
    · rw [if_neg h, if_neg h]; rfl
  | none =>
    cases peek s.Q r.id with
    | some o =>
      simp only
      by_cases h : o.mt.inCache = false
      · rw [if_pos h, if_pos h]; exact insertHIR_flat r s
      · rw [if_neg h, if_neg h]; rfl
    | none =>
      simp only
      by_cases h : s.lirsCount + r.size ≤ s.lirsLimit
      · rw [if_pos h, if_pos (show (fl s).lirsCount + r.size ≤ (fl s).lirsLimit from h)]
        show s.S.insert ⟨true, true⟩ r >>= _ = _
        cases s.S.insert ⟨true, true⟩ r with
        | error e => rfl
        | ok S' => rfl
      · rw [if_neg h, if_neg (show ¬ (fl s).lirsCount + r.size ≤ (fl s).lirsLimit from h)]
        exact insertHIR_flat r s

theorem fullLoop_flat (n : Nat) : Flat (fullLoop n) := by
  induction n with
  | zero =>
    intro s
    unfold fullLoop
    by_cases h : s.hirsCount ≥ s.hirsLimit
    · rw [if_pos h, if_pos (show (fl s).hirsCount ≥ (fl s).hirsLimit from h)]; rfl
    · rw [if_neg h, if_neg (show ¬ (fl s).hirsCount ≥ (fl s).hirsLimit from h)]; rfl
  | succ n ih =>
    intro s
    unfold fullLoop
    by_cases h : s.hirsCount ≥ s.hirsLimit
    · rw [if_pos h, if_pos (show (fl s).hirsCount ≥ (fl s).hirsLimit from h), evictHIR_flat s]
      cases evictHIR s with
      | error e => rfl
      | ok s' => exact ih s'
    · rw [if_neg h, if_neg (show ¬ (fl s).hirsCount ≥ (fl s).hirsLimit from h)]; rfl

theorem evict0_flat (r : Req) : Flat (fun s => evict0 s r) := by
  intro s
  simp only [evict0]
  show (match peek s.S r.id, peek s.Q r.id with | some o, _ => _ | none, some o => _ | none, none => _) = _
  cases peek s.S r.id with
  | some o =>
    simp only
    by_cases h : o.mt.isLIR = false ∧ o.mt.inCache = false
    · rw [if_pos h, if_pos h]
      show fullLoop (s.Q.q.length + 1) (fl s) >>= _ = _
      rw [fullLoop_flat]
      cases fullLoop (s.Q.q.length + 1) s with
      | error e => rfl
      | ok s' => exact evictLIR_flat s'
    · rw [if_neg h, if_neg h]; rfl
  | none =>
    cases peek s.Q r.id with
    | some o =>
      simp only
      by_cases h : o.mt.inCache = false
      · rw [if_pos h, if_pos h]; exact fullLoop_flat _ s
      · rw [if_neg h, if_neg h]; rfl
    | none =>
      simp only
      by_cases h : s.lirsCount + r.size > s.lirsLimit ∧ s.hirsCount + r.size > s.hirsLimit
      · rw [if_pos h, if_pos (show (fl s).lirsCount + r.size > (fl s).lirsLimit ∧ (fl s).hirsCount + r.size > (fl s).hirsLimit from h)]
        exact evictHIR_flat s
      · rw [if_neg h, if_neg (show ¬ ((fl s).lirsCount + r.size > (fl s).lirsLimit ∧ (fl s).hirsCount + r.size > (fl s).hirsLimit) from h)]; rfl

theorem canInsert1_flat (r : Req) : Flat2 (fun s => canInsert1 s r) := by
  intro s
  simp only [canInsert1]
  show (match peek s.S r.id, peek s.Q r.id with | some o, _ => _ | none, some _ => _ | none, none => _) = _
  cases peek s.S r.id with
  | some o =>
    simp only
    by_cases h : o.mt.isLIR = false ∧ o.mt.inCache = false
    · rw [if_pos h, if_pos h]
      show lirLoop true o.id (s.S.q.length + 1) (fl s) >>= _ = _
      rw [lirLoop_flat]
      cases lirLoop true o.id (s.S.q.length + 1) s with
      | error e => rfl
      | ok x =>
        simp only [Res.bind_ok]
        show x.2.NH.remove o.id >>= _ = _
        cases x.2.NH.remove o.id with
        | error e => rfl
        | ok p => rfl
    · rw [if_neg h, if_neg h]; rfl
  | none =>
    cases peek s.Q r.id with
    | some o => rfl
    | none =>
      simp only
      by_cases h : r.size > s.lirsLimit ∨ r.size > s.hirsLimit
      · rw [if_pos h, if_pos (show r.size > (fl s).lirsLimit ∨ r.size > (fl s).hirsLimit from h)]; rfl
      · rw [if_neg h, if_neg (show ¬ (r.size > (fl s).lirsLimit ∨ r.size > (fl s).hirsLimit) from h)]
        by_cases h : s.lirsCount + r.size > s.lirsLimit ∧ s.hirsCount + r.size > s.hirsLimit
        · rw [if_pos h, if_pos (show (fl s).lirsCount + r.size > (fl s).lirsLimit ∧ (fl s).hirsCount + r.size > (fl s).hirsLimit from h)]
          show hirLoop r.size (s.Q.q.length + 1) (fl s) >>= _ = _
          rw [hirLoop_flat]
          cases hirLoop r.size (s.Q.q.length + 1) s with
          | error e => rfl
          | ok s' => rfl
        · rw [if_neg h, if_neg (show ¬ ((fl s).lirsCount + r.size > (fl s).lirsLimit ∧ (fl s).hirsCount + r.size > (fl s).hirsLimit) from h)]; rfl

theorem canInsert0_flat (r : Req) : Flat2 (fun s => canInsert0 s r) := by
  intro s
  simp only [canInsert0]
  show (if (s.base.canInsertDefault r).1 = false then _ else _) = _
  by_cases h : (s.base.canInsertDefault r).1 = false
  · rw [if_pos h, if_pos h]; rfl
  · rw [if_neg h, if_neg h]
    exact canInsert1_flat r { s with base := (s.base.canInsertDefault r).2 }

/-- `k` keeps the two fields that C does not have -/
def Keeps (k : State → Res State) : Prop := ∀ s s', k s = .ok s' → s'.fail = s.fail ∧ s'.inGet = s.inGet
def Keeps2 (k : State → Res (Bool × State)) : Prop := ∀ s b s', k s = .ok (b, s') → s'.fail = s.fail ∧ s'.inGet = s.inGet

theorem pruneLoop_keeps (n : Nat) : Keeps (pruneLoop n) := by
  induction n with
  | zero =>
    intro s s' h
    unfold pruneLoop at h
    split at h
    · injection h with h; rw [← h]; exact ⟨rfl, rfl⟩
    · cases h
  | succ n ih =>
    intro s s' h
    unfold pruneLoop at h
    split at h
    · injection h with h; rw [← h]; exact ⟨rfl, rfl⟩
    · obtain ⟨o, _, h⟩ := Res.bind_eq_ok.1 h
      split at h
      · injection h with h; rw [← h]; exact ⟨rfl, rfl⟩
      · obtain ⟨s1, h1, h⟩ := Res.bind_eq_ok.1 h
        obtain ⟨S', _, h⟩ := Res.bind_eq_ok.1 h
        have := ih _ _ h
        split at h1
        · obtain ⟨p, _, h1⟩ := Res.bind_eq_ok.1 h1
          injection h1 with h1
          rw [this.1, this.2, ← h1]; exact ⟨rfl, rfl⟩
        · injection h1 with h1
          rw [this.1, this.2, ← h1]; exact ⟨rfl, rfl⟩

theorem evictHIR_keeps : Keeps evictHIR := by
  intro s s' h
  unfold evictHIR at h
  obtain ⟨o, _, h⟩ := Res.bind_eq_ok.1 h
  obtain ⟨Q', _, h⟩ := Res.bind_eq_ok.1 h
  obtain ⟨s1, h1, h⟩ := Res.bind_eq_ok.1 h
  injection h with h
  split at h1
  · obtain ⟨N', _, h1⟩ := Res.bind_eq_ok.1 h1
    injection h1 with h1
    rw [← h, ← h1]; exact ⟨rfl, rfl⟩
  · injection h1 with h1
    rw [← h, ← h1]; exact ⟨rfl, rfl⟩

theorem hirLoop_keeps (need n : Nat) : Keeps (hirLoop need n) := by
  induction n with
  | zero =>
    intro s s' h
    unfold hirLoop at h
    split at h
    · cases h
    · injection h with h; rw [← h]; exact ⟨rfl, rfl⟩
  | succ n ih =>
    intro s s' h
    unfold hirLoop at h
    split at h
    · obtain ⟨s1, h1, h⟩ := Res.bind_eq_ok.1 h
      have a := evictHIR_keeps _ _ h1
      have b := ih _ _ h
      exact ⟨b.1.trans a.1, b.2.trans a.2⟩
    · injection h with h; rw [← h]; exact ⟨rfl, rfl⟩

theorem fullLoop_keeps (n : Nat) : Keeps (fullLoop n) := by
  induction n with
  | zero =>
    intro s s' h
    unfold fullLoop at h
    split at h
    · cases h
    · injection h with h; rw [← h]; exact ⟨rfl, rfl⟩
  | succ n ih =>
    intro s s' h
    unfold fullLoop at h
    split at h
    · obtain ⟨s1, h1, h⟩ := Res.bind_eq_ok.1 h
      have a := evictHIR_keeps _ _ h1
      have b := ih _ _ h
      exact ⟨b.1.trans a.1, b.2.trans a.2⟩
    · injection h with h; rw [← h]; exact ⟨rfl, rfl⟩

theorem evictLIR_keeps : Keeps evictLIR := by
  intro s s' h
  unfold evictLIR at h
  obtain ⟨o, _, h⟩ := Res.bind_eq_ok.1 h
  obtain ⟨S', _, h⟩ := Res.bind_eq_ok.1 h
  obtain ⟨s3, h3, h⟩ := Res.bind_eq_ok.1 h
  have a := pruneLoop_keeps _ _ _ h
  rw [a.1, a.2]
  split at h3
  · obtain ⟨s2, h2, h3⟩ := Res.bind_eq_ok.1 h3
    obtain ⟨Q', _, h3⟩ := Res.bind_eq_ok.1 h3
    injection h3 with h3
    have b := hirLoop_keeps _ _ _ _ h2
    rw [← h3]
    exact b
  · injection h3 with h3
    rw [← h3]; exact ⟨rfl, rfl⟩

theorem lirLoop_keeps (inS : Bool) (id : ObjId) (n : Nat) : ∀ s x, lirLoop inS id n s = .ok x → x.2.fail = s.fail ∧ x.2.inGet = s.inGet := by
  induction n with
  | zero => intro s x h; cases h
  | succ n ih =>
    intro s x h
    unfold lirLoop at h
    split at h
    · cases h
    · split at h
      · obtain ⟨s1, h1, h⟩ := Res.bind_eq_ok.1 h
        have a := evictLIR_keeps _ _ h1
        have b := ih _ _ h
        exact ⟨b.1.trans a.1, b.2.trans a.2⟩
      · injection h with h; rw [← h]; exact ⟨rfl, rfl⟩

theorem find0_keeps (r : Req) (u : Bool) : Keeps2 (fun s => find0 s r u) := by
  intro s b s' h
  simp only [find0] at h
  obtain ⟨a, _, h⟩ := Res.bind_eq_ok.1 h
  obtain ⟨b', _, h⟩ := Res.bind_eq_ok.1 h
  split at h
  · split at h
    · obtain ⟨s1, h1, h⟩ := Res.bind_eq_ok.1 h
      injection h with h
      injection h with _ h
      rw [← h]
      have k := pruneLoop_keeps _ _ _ h1
      exact ⟨k.1, k.2⟩
    · split at h
      · obtain ⟨s1, h1, h⟩ := Res.bind_eq_ok.1 h
        injection h with h
        injection h with _ h
        rw [← h]
        simp only [hitInS] at h1
        obtain ⟨s2, h2, h1⟩ := Res.bind_eq_ok.1 h1
        obtain ⟨x, h3, h1⟩ := Res.bind_eq_ok.1 h1
        injection h1 with h1
        rw [← h1]
        have k := lirLoop_keeps _ _ _ _ _ h3
        have : s2.fail = s.fail ∧ s2.inGet = s.inGet := by
          split at h2
          · obtain ⟨p, _, h2⟩ := Res.bind_eq_ok.1 h2
            injection h2 with h2
            rw [← h2]; exact ⟨rfl, rfl⟩
          · injection h2 with h2
            rw [← h2]; exact ⟨rfl, rfl⟩
        exact ⟨k.1.trans this.1, k.2.trans this.2⟩
      · injection h with h
        injection h with _ h
        rw [← h]; exact ⟨rfl, rfl⟩
  · split at h
    · obtain ⟨s1, h1, h⟩ := Res.bind_eq_ok.1 h
      injection h with h
      injection h with _ h
      rw [← h]
      simp only [hitInQ] at h1
      obtain ⟨x, h3, h1⟩ := Res.bind_eq_ok.1 h1
      obtain ⟨S', _, h1⟩ := Res.bind_eq_ok.1 h1
      injection h1 with h1
      rw [← h1]
      have k := lirLoop_keeps _ _ _ _ _ h3
      exact ⟨k.1, k.2⟩
    · cases h
  · injection h with h
    injection h with _ h
    rw [← h]; exact ⟨rfl, rfl⟩

theorem canInsert0_keeps (r : Req) : Keeps2 (fun s => canInsert0 s r) := by
  intro s b s' h
  simp only [canInsert0] at h
  split at h
  · injection h with h
    injection h with _ h
    rw [← h]; exact ⟨rfl, rfl⟩
  · simp only [canInsert1] at h
    split at h
    · split at h
      · obtain ⟨x, h1, h⟩ := Res.bind_eq_ok.1 h
        obtain ⟨p, _, h⟩ := Res.bind_eq_ok.1 h
        injection h with h
        injection h with _ h
        rw [← h]
        have k := lirLoop_keeps _ _ _ _ _ h1
        exact ⟨k.1, k.2⟩
      · cases h
    · cases h
    · split at h
      · injection h with h
        injection h with _ h
        rw [← h]; exact ⟨rfl, rfl⟩
      · split at h
        · obtain ⟨s1, h1, h⟩ := Res.bind_eq_ok.1 h
          injection h with h
          injection h with _ h
          rw [← h]
          have k := hirLoop_keeps _ _ _ _ h1
          exact ⟨k.1, k.2⟩
        · injection h with h
          injection h with _ h
          rw [← h]; exact ⟨rfl, rfl⟩

theorem evict0_keeps (r : Req) : Keeps (fun s => evict0 s r) := by
  intro s s' h
  simp only [evict0] at h
  split at h
  · split at h
    · obtain ⟨s1, h1, h⟩ := Res.bind_eq_ok.1 h
      have a := fullLoop_keeps _ _ _ h1
      have b := evictLIR_keeps _ _ h
      exact ⟨b.1.trans a.1, b.2.trans a.2⟩
    · injection h with h; rw [← h]; exact ⟨rfl, rfl⟩
  · split at h
    · exact fullLoop_keeps _ _ _ h
    · injection h with h; rw [← h]; exact ⟨rfl, rfl⟩
  · split at h
    · exact evictHIR_keeps _ _ h
    · injection h with h; rw [← h]; exact ⟨rfl, rfl⟩

/-- the loop that makes room, inside and outside of `LIRS_get` -/
theorem evictLoop_flat (r : Req) (n : Nat) : ∀ s, s.fail = none →
    algo.evictLoop r n (fl s) = plain.evictLoop r n s >>= fun s' => .ok (fl s') := by
  induction n with
  | zero =>
    intro s hf
    unfold Algo.evictLoop
    have : algo.mustEvict (fl s) r = plain.mustEvict s r := rfl
    rw [this]
    cases plain.mustEvict s r <;> rfl
  | succ n ih =>
    intro s hf
    unfold Algo.evictLoop
    have : algo.mustEvict (fl s) r = plain.mustEvict s r := rfl
    rw [this]
    cases plain.mustEvict s r with
    | false => rfl
    | true =>
      simp only [if_true]
      have e1 : algo.evict (fl s) r = evict0 s r >>= fun s' => .ok (fl s') := by
        show (fl s).raise (evict0 (fl s) r) = _
        unfold State.raise
        rw [show (fl s).fail = none from hf]
        exact evict0_flat r s
      have e2 : plain.evict s r = evict0 s r := by
        show s.raise (evict0 s r) = _
        unfold State.raise
        rw [hf]
      rw [e1, e2]
      cases he : evict0 s r with
      | error e => rfl
      | ok s' =>
        simp only [Res.bind_ok]
        exact ih s' ((evict0_keeps r s s' he).1.trans hf)

theorem evictLoop_keeps (r : Req) (n : Nat) : ∀ s s', s.fail = none → plain.evictLoop r n s = .ok s' → s'.fail = none ∧ s'.inGet = s.inGet := by
  induction n with
  | zero =>
    intro s s' hf h
    unfold Algo.evictLoop at h
    split at h
    · cases h
    · injection h with h; rw [← h]; exact ⟨hf, rfl⟩
  | succ n ih =>
    intro s s' hf h
    unfold Algo.evictLoop at h
    split at h
    · obtain ⟨s1, h1, h⟩ := Res.bind_eq_ok.1 h
      have e2 : plain.evict s r = evict0 s r := by
        show s.raise (evict0 s r) = _
        unfold State.raise
        rw [hf]
      rw [e2] at h1
      have a := evict0_keeps r s s1 h1
      have b := ih _ _ (a.1.trans hf) h
      exact ⟨b.1, b.2.trans a.2⟩
    · injection h with h; rw [← h]; exact ⟨hf, rfl⟩

/-- a fault of `LIRS_can_insert` comes out in the next call -/
theorem get_fail {s s1 : State} {r : Req} {e : Fault} (A : Algo State) (hfu : ∀ s, A.fuel s = s.Q.q.length + s.S.q.length + 1)
    (hev : ∀ s, s.fail = some e → A.evict s r = .error e) (hin : ∀ s, s.fail = some e → A.insert s r = .error e)
    (hf : A.find (A.bump s) r true = .ok (false, s1)) {s2 : State} (hc : A.canInsert s1 r = (true, s2)) (h2 : s2.fail = some e) : A.get s r = .error e := by
  unfold Algo.get
  rw [hf, Res.bind_ok]
  simp only [Bool.false_eq_true, if_false, hc]
  rw [hfu]
  unfold Algo.evictLoop
  cases A.mustEvict s2 r with
  | true => simp only [if_true, hev s2 h2]; rfl
  | false => simp only [Bool.false_eq_true, if_false, Res.bind_ok, hin s2 h2]; rfl

theorem algo_evict_fail {s : State} {r : Req} {e : Fault} (h : s.fail = some e) : algo.evict s r = .error e := by
  show s.raise _ = _
  unfold State.raise
  rw [h]

theorem algo_insert_fail {s : State} {r : Req} {e : Fault} (h : s.fail = some e) : algo.insert s r = .error e := by
  show s.raise _ >>= _ = _
  unfold State.raise
  rw [h]; rfl

theorem plain_insert_fail {s : State} {r : Req} {e : Fault} (h : s.fail = some e) : plain.insert s r = .error e := by
  show s.raise _ = _
  unfold State.raise
  rw [h]

theorem fl_back {s : State} (h : s.inGet = false) : ({ fl s with inGet := false } : State) = s := by
  unfold fl
  cases s
  cases h
  rfl

theorem insert0_keeps (r : Req) : Keeps (fun s => insert0 s r) := by
  intro s s' h
  have hHIR : ∀ s', insertHIR s r = .ok s' → s'.fail = s.fail ∧ s'.inGet = s.inGet := by
    intro s' h
    simp only [insertHIR] at h
    obtain ⟨S', _, h⟩ := Res.bind_eq_ok.1 h
    obtain ⟨Q', _, h⟩ := Res.bind_eq_ok.1 h
    injection h with h
    rw [← h]; exact ⟨rfl, rfl⟩
  simp only [insert0] at h
  split at h
  · split at h
    · injection h with h; rw [← h]; exact ⟨rfl, rfl⟩
    · injection h with h; rw [← h]; exact ⟨rfl, rfl⟩
  · split at h
    · exact hHIR _ h
    · injection h with h; rw [← h]; exact ⟨rfl, rfl⟩
  · split at h
    · obtain ⟨S', _, h⟩ := Res.bind_eq_ok.1 h
      injection h with h
      rw [← h]; exact ⟨rfl, rfl⟩
    · exact hHIR _ h

/-- `LIRS_get`, LIRS.c:151-155: `cache_get_base`, then `limitStack`. -/
theorem get_eq (s : State) (r : Req) (hf : s.fail = none) (hg : s.inGet = false) :
    algo.get s r = plain.get s r >>= fun p => limitStack p.2 >>= fun s' => .ok (p.1, s') := by
  generalize hb : ({ s with base := s.base.bump } : State) = s0
  have hf0 : s0.fail = none := by rw [← hb]; exact hf
  have hg0 : s0.inGet = false := by rw [← hb]; exact hg
  have ea : algo.bump s = fl s0 := by rw [← hb]; rfl
  have ep : plain.bump s = s0 := hb
  have pfind : plain.find (plain.bump s) r true = find0 s0 r true := by
    rw [ep]
    show s0.raise _ = _
    unfold State.raise
    rw [hf0]
  have afind : algo.find (algo.bump s) r true = find0 s0 r true >>= fun p => if p.1 then limitStack p.2 >>= fun s' => .ok (true, s') else .ok (false, fl p.2) := by
    rw [ea]
    show find (fl s0) r true = _
    unfold find State.raise
    rw [show (fl s0).fail = none from hf0]
    simp only
    rw [show find0 (fl s0) r true = find0 s0 r true >>= fun x => .ok (x.1, fl x.2) from find0_flat r true s0]
    cases hfd : find0 s0 r true with
    | error e => rfl
    | ok p =>
      obtain ⟨b, s1⟩ := p
      simp only [Res.bind_ok]
      cases b with
      | false => rfl
      | true =>
        simp only [if_true]
        unfold finish
        rw [if_pos (show (fl s1).inGet = true from rfl), fl_back ((find0_keeps r true s0 true s1 hfd).2.trans hg0)]
  cases hfd : find0 s0 r true with
  | error e =>
    rw [hfd] at pfind afind
    unfold Algo.get
    rw [pfind, afind]; rfl
  | ok p =>
    obtain ⟨b, s1⟩ := p
    rw [hfd] at pfind afind
    rw [Res.bind_ok] at afind
    have k1 := find0_keeps r true s0 b s1 hfd
    cases b with
    | true =>
      rw [get_hit pfind, Res.bind_ok]
      simp only [if_true] at afind
      unfold Algo.get
      rw [afind]
      show (limitStack s1 >>= _) >>= _ = limitStack s1 >>= _
      cases limitStack s1 with
      | error e => rfl
      | ok s' => rfl
    | false =>
      simp only [Bool.false_eq_true, if_false] at afind
      have k1f : s1.fail = none := k1.1.trans hf0
      have k1g : s1.inGet = false := k1.2.trans hg0
      have acan : algo.canInsert (fl s1) r = latch (fl s1) (canInsert0 s1 r >>= fun p => if p.1 then .ok (true, fl p.2) else limitStack p.2 >>= fun s' => .ok (false, s')) := by
        show canInsert (fl s1) r = _
        unfold canInsert
        rw [show canInsert0 (fl s1) r = canInsert0 s1 r >>= fun x => .ok (x.1, fl x.2) from canInsert0_flat r s1]
        cases hcd : canInsert0 s1 r with
        | error e => rfl
        | ok q =>
          obtain ⟨b, s2⟩ := q
          simp only [Res.bind_ok]
          cases b with
          | true => rfl
          | false =>
            simp only [Bool.false_eq_true, if_false]
            unfold finish
            rw [if_pos (show (fl s2).inGet = true from rfl), fl_back ((canInsert0_keeps r s1 false s2 hcd).2.trans k1g)]
      have pcan : plain.canInsert s1 r = latch s1 (canInsert0 s1 r) := rfl
      cases hcd : canInsert0 s1 r with
      | error e =>
        rw [hcd] at acan pcan
        have pev : ∀ s, s.fail = some e → plain.evict s r = .error e := fun s h => algo_evict_fail h
        rw [get_fail plain (fun _ => rfl) pev (fun _ h => plain_insert_fail h) pfind (s2 := { s1 with fail := some e }) pcan rfl,
          get_fail algo (fun _ => rfl) (fun _ h => algo_evict_fail h) (fun _ h => algo_insert_fail h) afind (s2 := { fl s1 with fail := some e }) acan rfl]
        rfl
      | ok q =>
        obtain ⟨b, s2⟩ := q
        rw [hcd] at acan pcan
        rw [Res.bind_ok] at acan
        have k2 := canInsert0_keeps r s1 b s2 hcd
        have k2f : s2.fail = none := k2.1.trans k1f
        have k2g : s2.inGet = false := k2.2.trans k1g
        cases b with
        | false =>
          simp only [Bool.false_eq_true, if_false] at acan
          rw [get_reject pfind (s2 := s2) pcan, Res.bind_ok]
          cases hl : limitStack s2 with
          | error e =>
            rw [hl] at acan
            rw [get_fail algo (fun _ => rfl) (fun _ h => algo_evict_fail h) (fun _ h => algo_insert_fail h) afind (s2 := { fl s1 with fail := some e }) acan rfl]
            rfl
          | ok s3 =>
            rw [hl] at acan
            rw [get_reject afind (s2 := s3) acan]
            rfl
        | true =>
          simp only [if_true] at acan
          have acan' : algo.canInsert (fl s1) r = (true, fl s2) := acan
          have pcan' : plain.canInsert s1 r = (true, s2) := pcan
          have hfl : algo.evictLoop r (algo.fuel (fl s2)) (fl s2) = plain.evictLoop r (plain.fuel s2) s2 >>= fun s' => .ok (fl s') :=
            evictLoop_flat r (s2.Q.q.length + s2.S.q.length + 1) s2 k2f
          unfold Algo.get
          rw [afind, pfind, Res.bind_ok, Res.bind_ok]
          simp only [Bool.false_eq_true, if_false]
          rw [acan', pcan']
          simp only
          rw [hfl]
          cases hel : plain.evictLoop r (plain.fuel s2) s2 with
          | error e => rfl
          | ok s3 =>
            simp only [Res.bind_ok]
            have k3 := evictLoop_keeps r _ s2 s3 k2f hel
            have ai : algo.insert (fl s3) r = insert0 s3 r >>= fun s' => limitStack s' := by
              show insert (fl s3) r = _
              unfold insert State.raise
              rw [show (fl s3).fail = none from k3.1]
              simp only
              rw [show insert0 (fl s3) r = insert0 s3 r >>= fun s' => .ok (fl s') from insert0_flat r s3]
              cases hin : insert0 s3 r with
              | error e => rfl
              | ok s4 =>
                simp only [Res.bind_ok]
                unfold finish
                rw [if_pos (show (fl s4).inGet = true from rfl), fl_back ((insert0_keeps r s3 s4 hin).2.trans (k3.2.trans k2g))]
            have pi : plain.insert s3 r = insert0 s3 r := by
              show s3.raise _ = _
              unfold State.raise
              rw [k3.1]
            rw [ai, pi]
            cases insert0 s3 r with
            | error e => rfl
            | ok s4 => rfl

end Verif.LIRS
