import Verif.Base.BaseInv
import Verif.Spec.Cache
import Mathlib.Data.List.Induction
/-!
# From per-function contracts to properties of every call sequence

Helper file: the per-algorithm files establish `Contract` (and `Strong`) for the model of each algorithm; the
theorems here turn that into the statements of `Verif/Spec/Cache.lean`.
-/

namespace Verif
open Spec

theorem bytes_eq_charge (md : Nat) (c : Contents) : bytes md c = charge md c := by
  induction c with
  | nil => rfl
  | cons a c ih => simp only [bytes, List.map_cons, List.sum_cons, charge] at ih ⊢; omega

variable {σ : Type}

/-- A state in which `find` with update can be called with `r`: any when the client may call it, otherwise the state in which `get`
calls it, after counting the request. -/
def Fresh (A : Algo σ) (Inv : σ → Prop) (p : Perms) (ok : Req → Prop) (r : Req) (s : σ) : Prop :=
  p.upd = true ∨ (ok r ∧ ∃ s0, Inv s0 ∧ s = A.bump s0)

theorem Fresh.bump {A : Algo σ} {Inv : σ → Prop} {p : Perms} {ok : Req → Prop} {r : Req} {s : σ} (hr : ok r) (h : Inv s) :
    Fresh A Inv p ok r (A.bump s) := Or.inr ⟨hr, s, h, rfl⟩

structure Contract (A : Algo σ) (cached : σ → Contents) (Inv : σ → Prop) (Ready : σ → Req → Prop)
    (measure : σ → Nat) (cs md : Nat) (p : Perms) (ok : Req → Prop) : Prop where
  csz : ∀ {s}, Inv s → A.cacheSize s = cs
  mdz : ∀ {s}, Inv s → A.md s = md
  nodup : ∀ {s}, Inv s → (cached s).ids.Nodup
  occ : ∀ {s}, Inv s → A.occ s = (charge md (cached s) : Nat)
  nObj : ∀ {s}, Inv s → A.nObj s = ((cached s).length : Nat)
  cap : ∀ {s}, Inv s → A.occ s ≤ (cs : Int)
  bump : ∀ {s}, Inv s → Inv (A.bump s) ∧ cached (A.bump s) = cached s
  findF : p.peek = true ∨ p.ins = true → ∀ {s} (r), Inv s → A.find s r false = .ok (decide (r.id ∈ (cached s).ids), s)
  findHit : ∀ {s} (r), Inv s → r.id ∈ (cached s).ids → Fresh A Inv p ok r s →
    ∃ s', A.find s r true = .ok (true, s') ∧ Inv s' ∧ (cached s').Subperm (cached s)
  findMiss : ∀ {s} (r), Inv s → r.id ∉ (cached s).ids → Fresh A Inv p ok r s →
    ∃ s1, A.find s r true = .ok (false, s1) ∧ Inv s1 ∧ (cached s1).Perm (cached s) ∧
      Inv (A.canInsert s1 r).2 ∧ (cached (A.canInsert s1 r).2).Perm (cached s) ∧
      ((A.canInsert s1 r).1 = true → ok r → Ready (A.canInsert s1 r).2 r)
  fuel : ∀ {s}, Inv s → measure s ≤ A.fuel s
  evictLoop : ∀ {s} (r), Inv s → ok r → Ready s r → r.id ∉ (cached s).ids → A.mustEvict s r = true →
    ∃ s', A.evict s r = .ok s' ∧ Inv s' ∧ Ready s' r ∧ (cached s').Subperm (cached s) ∧ measure s' < measure s
  insert : ∀ {s} (r), Inv s → ok r → Ready s r → r.id ∉ (cached s).ids → A.mustEvict s r = false →
    ∃ s', A.insert s r = .ok s' ∧ Inv s' ∧ (cached s').Subperm ((r.id, r.size % u32) :: cached s)
  userInsert : p.ins = true → ∀ {s} (r), Inv s → ok r → r.id ∉ (cached s).ids → A.mustEvict s r = false →
    ∃ s', A.insert s r = .ok s' ∧ Inv s' ∧ (cached s').Subperm ((r.id, r.size % u32) :: cached s)
  remove : p.rem = true → ∀ {s} (id), Inv s → ∃ b s', A.remove s id = .ok (b, s') ∧ Inv s' ∧
    (cached s').Subperm (cached s)
  evict : p.ev = true → ∀ {s} (r), Inv s → cached s ≠ [] →
    ∃ s', A.evict s r = .ok s' ∧ Inv s' ∧ (cached s').Subperm (cached s)

/-- Additional facts for algorithms whose `find` never evicts, whose `evict` drops at most one object per call
and whose `insert` always caches the object. -/
structure Strong {κ : Type} (A : Algo σ) (cached : σ → Contents) (Inv : σ → Prop) (Ready : σ → Req → Prop)
    (measure : σ → Nat) (cs md : Nat) (p : Perms) (ok : Req → Prop)
    (admits : σ → Req → Bool) (core : σ → κ) : Prop
    extends Contract A cached Inv Ready measure cs md p ok where
  hitPerm : ∀ {s s'} (r), Inv s → A.find s r true = .ok (true, s') → (cached s').Perm (cached s)
  missQuiet : ∀ {s} (r), Inv s → r.id ∉ (cached s).ids → A.find s r true = .ok (false, s)
  admitsEq : ∀ {s} (r), Inv s → (A.canInsert (A.bump s) r).1 = admits s r
  coreEq : ∀ {s} (r), Inv s → core (A.canInsert (A.bump s) r).2 = core s
  evictAtMostOne : ∀ {s s'} (r), Inv s → ok r → Ready s r → A.mustEvict s r = true → A.evict s r = .ok s' →
    ∃ vs : Contents, vs.length ≤ 1 ∧ (cached s).Perm (vs ++ cached s')
  insertPerm : ∀ {s s'} (r), Inv s → ok r → Ready s r → r.id ∉ (cached s).ids → A.mustEvict s r = false →
    A.insert s r = .ok s' →
    (cached s').Perm ((r.id, r.size % u32) :: cached s)
  removeGone : p.rem = true → ∀ {s s' : σ} {b : Bool} (id : ObjId), Inv s → A.remove s id = .ok (b, s') → id ∉ (cached s').ids

section
variable {A : Algo σ} {cached : σ → Contents} {Inv : σ → Prop} {Ready : σ → Req → Prop}
  {measure : σ → Nat} {cs md : Nat} {p : Perms} {ok : Req → Prop}

theorem notMem_ids_of_subperm {c c' : Contents} {id : ObjId} (h : c'.Subperm c) (hn : id ∉ c.ids) :
    id ∉ c'.ids := by
  intro hm
  obtain ⟨x, hx, rfl⟩ := List.mem_map.1 hm
  exact hn (List.mem_map.2 ⟨x, h.subset hx, rfl⟩)

theorem Contract.loop (C : Contract A cached Inv Ready measure cs md p ok) (r : Req) (hok : ok r) :
    ∀ n s, Inv s → Ready s r → r.id ∉ (cached s).ids → measure s ≤ n →
      ∃ s', A.evictLoop r n s = .ok s' ∧ Inv s' ∧ Ready s' r ∧ (cached s').Subperm (cached s) ∧
        A.mustEvict s' r = false := by
  intro n
  induction n with
  | zero =>
    intro s hi hr hn hm
    cases hme : A.mustEvict s r with
    | false => exact ⟨s, by simp [Algo.evictLoop, hme], hi, hr, List.Subperm.refl _, hme⟩
    | true =>
      obtain ⟨s', _, _, _, _, hlt⟩ := C.evictLoop r hi hok hr hn hme
      omega
  | succ n ih =>
    intro s hi hr hn hm
    cases hme : A.mustEvict s r with
    | false => exact ⟨s, by simp [Algo.evictLoop, hme], hi, hr, List.Subperm.refl _, hme⟩
    | true =>
      obtain ⟨s', he, hi', hr', hsub, hlt⟩ := C.evictLoop r hi hok hr hn hme
      obtain ⟨s'', h1, h2, h3, h4, h5⟩ := ih s' hi' hr' (notMem_ids_of_subperm hsub hn) (by omega)
      exact ⟨s'', by simp [Algo.evictLoop, hme, he, h1], h2, h3, h4.trans hsub, h5⟩

theorem get_reject {s s1 s2 : σ} {r : Req} (hf : A.find (A.bump s) r true = .ok (false, s1))
    (hc : A.canInsert s1 r = (false, s2)) : A.get s r = .ok (false, s2) := by
  unfold Algo.get
  rw [hf, Res.bind_ok]
  simp only [Bool.false_eq_true, if_false, hc]

theorem get_accept {s s1 s2 s3 s4 : σ} {r : Req} (hf : A.find (A.bump s) r true = .ok (false, s1))
    (hc : A.canInsert s1 r = (true, s2)) (h3 : A.evictLoop r (A.fuel s2) s2 = .ok s3)
    (h4 : A.insert s3 r = .ok s4) : A.get s r = .ok (false, s4) := by
  unfold Algo.get
  rw [hf, Res.bind_ok]
  simp only [Bool.false_eq_true, if_false, hc]
  simp [h3, h4]

theorem get_hit {s s1 : σ} {r : Req} (hf : A.find (A.bump s) r true = .ok (true, s1)) :
    A.get s r = .ok (true, s1) := by
  unfold Algo.get
  rw [hf, Res.bind_ok]; rfl

/-- Outcome of a get, weak form. -/
theorem Contract.get (C : Contract A cached Inv Ready measure cs md p ok) {s : σ} (r : Req) (hok : ok r)
    (hi : Inv s) : ∃ s', A.get s r = .ok (decide (r.id ∈ (cached s).ids), s') ∧ Inv s' ∧
      (cached s').Subperm (if r.id ∈ (cached s).ids then cached s else (r.id, r.size % u32) :: cached s) := by
  obtain ⟨hb, hbc⟩ := C.bump hi
  by_cases hin : r.id ∈ (cached s).ids
  · obtain ⟨s', hf, hi', hs⟩ := C.findHit r hb (by rw [hbc]; exact hin) (Fresh.bump hok hi)
    refine ⟨s', ?_, hi', ?_⟩
    · rw [get_hit hf]; simp [hin]
    · rw [hbc] at hs; simp only [hin, if_true]; exact hs
  · obtain ⟨s1, hf, hi1, hp1, hi2, hp2, hrd⟩ := C.findMiss r hb (by rw [hbc]; exact hin) (Fresh.bump hok hi)
    rw [hbc] at hp1 hp2
    simp only [hin, if_false, decide_false]
    rcases hcc : A.canInsert s1 r with ⟨c, s2⟩
    simp only [hcc] at hi2 hp2 hrd
    cases c with
    | false =>
      refine ⟨s2, get_reject hf hcc, hi2, ?_⟩
      exact hp2.subperm.trans (List.Sublist.subperm (List.sublist_cons_self _ _))
    | true =>
      have hn2 : r.id ∉ (cached s2).ids := notMem_ids_of_subperm hp2.subperm hin
      obtain ⟨s3, h1, h2, h3, h4, h5⟩ := C.loop r hok (A.fuel s2) _ hi2 (hrd rfl hok) hn2 (C.fuel hi2)
      obtain ⟨s4, k1, k2, k3⟩ := C.insert r h2 hok h3 (notMem_ids_of_subperm h4 hn2) h5
      refine ⟨s4, get_accept hf hcc h1 k1, k2, ?_⟩
      exact k3.trans ((List.subperm_cons _).2 (h4.trans hp2.subperm))

/-- What one call does to the contents. -/
def StepRel (cached : σ → Contents) (s : σ) (s' : σ) : Op → Prop
  | .get r => (cached s').Subperm (if r.id ∈ (cached s).ids then cached s else (r.id, r.size % u32) :: cached s)
  | .insert r => (cached s').Subperm ((r.id, r.size % u32) :: cached s)
  | .find _ _ => (cached s').Subperm (cached s)
  | .evict _ => (cached s').Subperm (cached s)
  | .remove _ => (cached s').Subperm (cached s)

theorem Contract.find (C : Contract A cached Inv Ready measure cs md p ok) {s : σ} (r : Req) (u : Bool)
    (hu : if u then p.upd = true else p.peek = true) (hi : Inv s) : ∃ s', A.find s r u = .ok (decide (r.id ∈ (cached s).ids), s') ∧ Inv s' ∧
      (cached s').Subperm (cached s) := by
  cases u with
  | false => exact ⟨s, C.findF (Or.inl hu) r hi, hi, List.Subperm.refl _⟩
  | true =>
    by_cases hin : r.id ∈ (cached s).ids
    · obtain ⟨s', h1, h2, h3⟩ := C.findHit r hi hin (Or.inl hu)
      exact ⟨s', by simp [h1, hin], h2, h3⟩
    · obtain ⟨s', h1, h2, h3, _⟩ := C.findMiss r hi hin (Or.inl hu)
      exact ⟨s', by simp [h1, hin], h2, h3.subperm⟩

theorem Contract.step (C : Contract A cached Inv Ready measure cs md p ok) {s : σ} (op : Op)
    (hop : Calls p ok op) (hi : Inv s) :
    ∃ b s', A.step s op = .ok (b, s') ∧ Inv s' ∧ StepRel cached s s' op := by
  cases op with
  | get r =>
    obtain ⟨s', h1, h2, h3⟩ := C.get r hop hi
    exact ⟨_, s', h1, h2, h3⟩
  | find r u =>
    obtain ⟨s', h1, h2, h3⟩ := C.find r u hop hi
    exact ⟨_, s', h1, h2, h3⟩
  | remove id =>
    obtain ⟨b, s', h1, h2, h3⟩ := C.remove hop id hi
    exact ⟨b, s', h1, h2, h3⟩
  | evict r =>
    by_cases hz : A.nObj s > 0
    · have hne : cached s ≠ [] := by
        intro h0
        have := C.nObj hi
        rw [h0] at this; simp at this; omega
      obtain ⟨s', h1, h2, h3⟩ := C.evict hop r hi hne
      exact ⟨true, s', by simp [Algo.step, hz, h1], h2, h3⟩
    · exact ⟨false, s, by simp only [Algo.step, hz, if_false], hi, List.Subperm.refl _⟩
  | insert r =>
    have hf := C.findF (Or.inr hop.1) r hi
    by_cases hin : r.id ∈ (cached s).ids
    · exact ⟨false, s, by simp [Algo.step, hf, hin], hi, List.Sublist.subperm (List.sublist_cons_self _ _)⟩
    · cases hme : A.mustEvict s r with
      | true => exact ⟨false, s, by simp [Algo.step, hf, hme], hi, List.Sublist.subperm (List.sublist_cons_self _ _)⟩
      | false =>
        obtain ⟨s', h1, h2, h3⟩ := C.userInsert hop.1 r hi hop.2 hin hme
        exact ⟨true, s', by simp [Algo.step, hf, hin, hme, h1], h2, h3⟩

theorem Contract.run (C : Contract A cached Inv Ready measure cs md p ok) :
    ∀ (ops : List Op) {s : σ}, Inv s → (∀ op ∈ ops, Calls p ok op) →
      ∃ out s', A.run s ops = .ok (out, s') ∧ Inv s' := by
  intro ops
  induction ops with
  | nil => intro s hi _; exact ⟨[], s, rfl, hi⟩
  | cons op ops ih =>
    intro s hi ho
    obtain ⟨b, s1, h1, h2, _⟩ := C.step op (ho op (by simp)) hi
    obtain ⟨out, s2, h3, h4⟩ := ih h2 (fun o h => ho o (by simp [h]))
    exact ⟨b :: out, s2, by simp [Algo.run, h1, h3], h4⟩

theorem Contract.reach (C : Contract A cached Inv Ready measure cs md p ok) {s0 s : σ} {ops : List Op}
    {out : List Bool} (hi : Inv s0) (ho : ∀ op ∈ ops, Calls p ok op) (h : Reaches A s0 ops out s) : Inv s := by
  obtain ⟨out', s', h1, h2⟩ := C.run ops hi ho
  unfold Reaches at h
  rw [h] at h1
  cases h1
  exact h2

/-- Runs compose. -/
theorem run_append (A : Algo σ) (ops ops' : List Op) (s : σ) :
    A.run s (ops ++ ops') = A.run s ops >>= fun (o1, s1) => A.run s1 ops' >>= fun (o2, s2) => .ok (o1 ++ o2, s2) := by
  induction ops generalizing s with
  | nil =>
    simp only [List.nil_append, Algo.run, Res.bind_ok]
    cases A.run s ops' with
    | error e => simp
    | ok x => simp
  | cons op ops ih =>
    simp only [List.cons_append, Algo.run]
    cases A.step s op with
    | error e => simp
    | ok x =>
      simp only [Res.bind_ok]
      rw [ih]
      cases A.run x.2 ops with
      | error e => simp
      | ok y =>
        simp only [Res.bind_ok]
        cases A.run y.2 ops' with
        | error e => simp
        | ok z => simp

/-! ### The specification statements -/

theorem Contract.safe (C : Contract A cached Inv Ready measure cs md p ok) {s0 : σ} (h0 : Inv s0) :
    Safe A s0 (Calls p ok) := by
  intro ops ho
  obtain ⟨out, s, h, _⟩ := C.run ops h0 ho
  exact ⟨out, s, h⟩

theorem Contract.capacity (C : Contract A cached Inv Ready measure cs md p ok) {s0 : σ} (h0 : Inv s0) :
    Capacity A s0 (Calls p ok) cs := by
  intro ops out s ho h
  exact C.cap (C.reach h0 ho h)

theorem Contract.accounting (C : Contract A cached Inv Ready measure cs md p ok) {s0 : σ} (h0 : Inv s0) :
    Accounting A cached s0 (Calls p ok) md := by
  intro ops out s ho h
  have hi := C.reach h0 ho h
  exact ⟨by rw [bytes_eq_charge]; exact C.occ hi, C.nObj hi⟩

theorem Contract.hitIffCached (C : Contract A cached Inv Ready measure cs md p ok) {s0 : σ} (h0 : Inv s0) :
    HitIffCached A cached s0 (Calls p ok) := by
  intro ops out s ho h
  have hi := C.reach h0 ho h
  refine ⟨fun r hp => C.findF (Or.inl hp) r hi, fun r hu => ?_, fun r hr => ?_⟩
  · obtain ⟨s', h1, _⟩ := C.find r true hu hi
    exact ⟨s', h1⟩
  · obtain ⟨s', h1, _⟩ := C.get r hr hi
    exact ⟨s', h1⟩

theorem Contract.addsOnlyRequested (C : Contract A cached Inv Ready measure cs md p ok) {s0 : σ} (h0 : Inv s0) :
    AddsOnlyRequested A cached s0 (Calls p ok) := by
  intro ops out s ho h op b s' hop hst x hx
  have hi := C.reach h0 ho h
  obtain ⟨b', s'', h1, h2, h3⟩ := C.step op hop hi
  rw [h1] at hst; cases hst
  cases op with
  | get r =>
    simp only [StepRel] at h3
    split at h3
    · exact Or.inl (h3.subset hx)
    · rcases List.mem_cons.1 (h3.subset hx) with h | h
      · exact Or.inr ⟨r, rfl, h⟩
      · exact Or.inl h
  | insert r =>
    rcases List.mem_cons.1 (h3.subset hx) with h | h
    · exact Or.inr ⟨r, rfl, h⟩
    · exact Or.inl h
  | find r u => exact Or.inl (h3.subset hx)
  | evict r => exact Or.inl (h3.subset hx)
  | remove id => exact Or.inl (h3.subset hx)

/-- `remove` really removes the object. -/
def RemoveGone (A : Algo σ) (cached : σ → Contents) (Inv : σ → Prop) (p : Perms) : Prop :=
  p.rem = true → ∀ {s s' : σ} {b : Bool} (id : ObjId), Inv s → A.remove s id = .ok (b, s') → id ∉ (cached s').ids

theorem Contract.noPhantom (C : Contract A cached Inv Ready measure cs md p ok) {s0 : σ} (h0 : Inv s0)
    (hempty : cached s0 = []) (hgone : RemoveGone A cached Inv p) : NoPhantom A cached s0 (Calls p ok) := by
  intro ops
  induction ops using List.reverseRecOn with
  | nil =>
    intro out s _ h
    simp only [Reaches, Algo.run] at h
    cases h
    exact ⟨C.nodup h0, by simp [hempty]⟩
  | append_singleton ops op ih =>
    intro out s ho h
    refine ⟨C.nodup (C.reach h0 ho h), ?_⟩
    have ho' : ∀ o ∈ ops, Calls p ok o := fun o h => ho o (by simp [h])
    obtain ⟨out1, s1, hr1, hi1⟩ := C.run ops h0 ho'
    obtain ⟨_, hph⟩ := ih out1 s1 ho' hr1
    unfold Reaches at h
    rw [run_append, hr1] at h
    obtain ⟨b, s2, hst, hi2, hrel⟩ := C.step op (ho op (by simp)) hi1
    simp only [Algo.run, hst, Res.bind_ok] at h
    cases h
    intro x hx
    have old : x ∈ cached s1 → op ≠ Op.remove x.1 → ∃ pre op' post r, ops ++ [op] = pre ++ op' :: post ∧
        insertedBy op' = some r ∧ r.id = x.1 ∧ r.size % u32 = x.2 ∧ Op.remove x.1 ∉ post := by
      intro hx hne
      obtain ⟨pre, op', post, r, h1, h2, h3, h4, h5⟩ := hph x hx
      refine ⟨pre, op', post ++ [op], r, by simp [h1], h2, h3, h4, ?_⟩
      simp only [List.mem_append, List.mem_singleton, not_or]
      exact ⟨h5, fun e => hne e.symm⟩
    have new : ∀ r, insertedBy op = some r → x = (r.id, r.size % u32) → ∃ pre op' post r, ops ++ [op] = pre ++ op' :: post ∧
        insertedBy op' = some r ∧ r.id = x.1 ∧ r.size % u32 = x.2 ∧ Op.remove x.1 ∉ post := by
      intro r hr hxr
      exact ⟨ops, op, [], r, rfl, hr, by simp [hxr], by simp [hxr], by simp⟩
    cases op with
    | get r =>
      simp only [StepRel] at hrel
      split at hrel
      · exact old (hrel.subset hx) (by simp)
      · rcases List.mem_cons.1 (hrel.subset hx) with h | h
        · exact new r rfl h
        · exact old h (by simp)
    | insert r =>
      rcases List.mem_cons.1 (hrel.subset hx) with h | h
      · exact new r rfl h
      · exact old h (by simp)
    | find r u => exact old (hrel.subset hx) (by simp)
    | evict r => exact old (hrel.subset hx) (by simp)
    | remove id =>
      refine old (hrel.subset hx) (fun e => ?_)
      injection e with e
      exact hgone (ho (Op.remove id) (by simp)) id hi1 hst (by rw [e]; exact List.mem_map_of_mem hx)

end

section
variable {κ : Type} {A : Algo σ} {cached : σ → Contents} {Inv : σ → Prop} {Ready : σ → Req → Prop}
  {measure : σ → Nat} {cs md : Nat} {p : Perms} {ok : Req → Prop} {admits : σ → Req → Bool} {core : σ → κ}

/-- The eviction loop in detail: the victims, and none too many. -/
theorem Strong.loop (C : Strong A cached Inv Ready measure cs md p ok admits core) (r : Req) (hok : ok r) :
    ∀ n s, Inv s → Ready s r → r.id ∉ (cached s).ids → measure s ≤ n →
      ∃ s' vs, A.evictLoop r n s = .ok s' ∧ Inv s' ∧ Ready s' r ∧ A.mustEvict s' r = false ∧
        (cached s).Perm (vs ++ cached s') ∧
        ∀ us v, vs = us ++ [v] → charge md (v :: cached s') + r.size + md > cs := by
  intro n
  induction n with
  | zero =>
    intro s hi hr hn hm
    cases hme : A.mustEvict s r with
    | false => exact ⟨s, [], by simp [Algo.evictLoop, hme], hi, hr, hme, by simp, by simp⟩
    | true =>
      obtain ⟨s', _, _, _, _, hlt⟩ := C.evictLoop r hi hok hr hn hme
      omega
  | succ n ih =>
    intro s hi hr hn hm
    cases hme : A.mustEvict s r with
    | false => exact ⟨s, [], by simp [Algo.evictLoop, hme], hi, hr, hme, by simp, by simp⟩
    | true =>
      obtain ⟨s1, he, hi1, hr1, hsub, hlt⟩ := C.evictLoop r hi hok hr hn hme
      obtain ⟨vs1, hlen, hp1⟩ := C.evictAtMostOne r hi hok hr hme he
      obtain ⟨s', vs, h1, h2, h3, h4, h5, h6⟩ := ih s1 hi1 hr1 (notMem_ids_of_subperm hsub hn) (by omega)
      refine ⟨s', vs1 ++ vs, by simp [Algo.evictLoop, hme, he, h1], h2, h3, h4, ?_, ?_⟩
      · rw [List.append_assoc]; exact hp1.trans (h5.append_left vs1)
      · intro us v huv
        rcases List.eq_nil_or_concat vs with rfl | ⟨ws, w, rfl⟩
        · -- the last victim was evicted in this round, when the object did not fit yet
          have hocc := C.occ hi
          have hmd := C.mdz hi
          have hcs := C.csz hi
          simp only [Algo.mustEvict, decide_eq_true_eq] at hme
          rw [hocc, hmd, hcs] at hme
          match vs1, hlen with
          | [], _ => simp at huv
          | [w], _ =>
            simp only [List.append_nil] at huv
            have hv : w = v := by
              cases us with
              | nil => simpa using huv
              | cons a us => simp at huv
            subst hv
            have e1 := charge_perm (md := md) hp1
            have e2 := charge_perm (md := md) h5
            simp only [List.singleton_append, List.nil_append] at e1 e2
            simp only [charge] at e1 ⊢
            omega
        · have : ws ++ [w] = (us.drop vs1.length) ++ [v] ∧ w = v := by
            have hh : vs1 ++ ws ++ [w] = us ++ [v] := by simpa using huv
            obtain ⟨ha, hb⟩ := List.append_inj' hh rfl
            refine ⟨?_, by simpa using hb⟩
            rw [← ha]; simp only [List.drop_left]; simpa using hb
          have hw : ws.concat w = us.drop vs1.length ++ [v] := by rw [List.concat_eq_append]; exact this.1
          exact h6 _ v hw

theorem Strong.get (C : Strong A cached Inv Ready measure cs md p ok admits core) {s : σ} (r : Req)
    (hok : ok r) (hi : Inv s) (hn : r.id ∉ (cached s).ids) :
    (admits s r = false ∧ ∃ s', A.get s r = .ok (false, s') ∧ Inv s' ∧ core s' = core s ∧ (cached s').Perm (cached s)) ∨
    (admits s r = true ∧ ∃ s' vs kept, A.get s r = .ok (false, s') ∧ Inv s' ∧ (cached s).Perm (vs ++ kept) ∧
      (cached s').Perm ((r.id, r.size % u32) :: kept) ∧
        ∀ us v, vs = us ++ [v] → charge md (v :: kept) + r.size + md > cs) := by
  obtain ⟨hb, hbc⟩ := C.bump hi
  have hnb : r.id ∉ (cached (A.bump s)).ids := by rw [hbc]; exact hn
  obtain ⟨s1, hf, hi1, hp1, hi2, hp2, hrd⟩ := C.findMiss r hb hnb (Fresh.bump hok hi)
  have hq := C.missQuiet r hb hnb
  rw [hf] at hq; cases hq
  have had := C.admitsEq r hi
  have hco := C.coreEq r hi
  rw [hbc] at hp2
  rcases hcc : A.canInsert (A.bump s) r with ⟨c, s2⟩
  simp only [hcc] at had hco hi2 hp2 hrd
  rw [← had]
  cases c with
  | false =>
    exact Or.inl ⟨rfl, s2, get_reject hf hcc, hi2, hco, hp2⟩
  | true =>
    right
    have hn2 : r.id ∉ (cached s2).ids := notMem_ids_of_subperm hp2.subperm hn
    obtain ⟨s3, vs, h1, h2, h3, h4, h5, h6⟩ := C.loop r hok (A.fuel s2) s2 hi2 (hrd rfl hok) hn2 (C.fuel hi2)
    have hn3 : r.id ∉ (cached s3).ids := by
      refine notMem_ids_of_subperm ?_ hn2
      exact (List.Sublist.subperm (List.sublist_append_right vs _)).trans h5.symm.subperm
    obtain ⟨s4, k1, k2, _⟩ := C.insert r h2 hok h3 hn3 h4
    have k3 := C.insertPerm r h2 hok h3 hn3 h4 k1
    exact ⟨rfl, s4, vs, cached s3, get_accept hf hcc h1 k1, k2, hp2.symm.trans h5, k3, h6⟩

theorem Strong.noPhantom (C : Strong A cached Inv Ready measure cs md p ok admits core) {s0 : σ} (h0 : Inv s0)
    (hempty : cached s0 = []) : NoPhantom A cached s0 (Calls p ok) :=
  C.toContract.noPhantom h0 hempty C.removeGone

theorem Strong.admittedMissCached (C : Strong A cached Inv Ready measure cs md p ok admits core) {s0 : σ}
    (h0 : Inv s0) : AdmittedMissCached A cached admits s0 (Calls p ok) := by
  intro ops out s ho h r hr hn ha
  have hi := C.reach h0 ho h
  rcases C.get r hr hi hn with ⟨hf, _⟩ | ⟨_, s', vs, kept, h1, _, _, h2, _⟩
  · rw [ha] at hf; simp at hf
  · exact ⟨s', h1, h2.symm.subset (by simp)⟩

theorem Strong.rejectQuiet (C : Strong A cached Inv Ready measure cs md p ok admits core) {s0 : σ}
    (h0 : Inv s0) : RejectQuiet A cached admits core s0 (Calls p ok) := by
  intro ops out s ho h r hr hn ha
  have hi := C.reach h0 ho h
  rcases C.get r hr hi hn with ⟨_, s', h1, _, h2, _⟩ | ⟨ht, _⟩
  · exact ⟨s', h1, h2⟩
  · rw [ha] at ht; simp at ht

theorem Strong.evictOnDemand (C : Strong A cached Inv Ready measure cs md p ok admits core) {s0 : σ}
    (h0 : Inv s0) : EvictOnDemand A cached s0 (Calls p ok) cs md := by
  intro ops out s ho h r b s' hr hg
  have hi := C.reach h0 ho h
  obtain ⟨hb, hbc⟩ := C.bump hi
  by_cases hin : r.id ∈ (cached s).ids
  · have hin' : r.id ∈ (cached (A.bump s)).ids := by rw [hbc]; exact hin
    obtain ⟨s1, hf, _⟩ := C.findHit r hb hin' (Fresh.bump hr hi)
    have hp := C.hitPerm r hb hf
    rw [hbc] at hp
    rw [get_hit hf] at hg
    cases hg
    exact ⟨fun _ => hp, by simp⟩
  · rcases C.get r hr hi hin with ⟨_, s1, h1, _, _, hp⟩ | ⟨_, s1, vs, kept, h1, _, hp, hp', hmin⟩
    · rw [h1] at hg; cases hg
      exact ⟨by simp, fun _ => ⟨[], cached s, by simp, Or.inl hp, by simp⟩⟩
    · rw [h1] at hg; cases hg
      refine ⟨by simp, fun _ => ⟨vs, kept, hp, Or.inr hp', fun us v hu => ?_⟩⟩
      rw [bytes_eq_charge]; exact hmin us v hu

end

/-- What every permitted call preserves holds in every reachable state. -/
theorem run_inv {A : Algo σ} {okOp : Op → Prop} {P : σ → Prop} (hstep : ∀ {s op b s'}, okOp op → P s → A.step s op = .ok (b, s') → P s') :
    ∀ {ops : List Op} {s0 : σ} {out : List Bool} {s : σ}, P s0 → (∀ op ∈ ops, okOp op) → Spec.Reaches A s0 ops out s → P s := by
  intro ops
  induction ops with
  | nil => intro s0 out s h _ hr; simp only [Spec.Reaches, Algo.run] at hr; cases hr; exact h
  | cons op ops ih =>
    intro s0 out s h ho hr
    simp only [Spec.Reaches, Algo.run] at hr
    cases e : A.step s0 op with
    | error f => rw [e] at hr; cases hr
    | ok p =>
      obtain ⟨b, s1⟩ := p
      rw [e, Res.bind_ok] at hr
      cases e2 : A.run s1 ops with
      | error f => simp only [e2] at hr; cases hr
      | ok q =>
        obtain ⟨o2, s2⟩ := q
        simp only [e2, Res.bind_ok] at hr
        cases hr
        exact ih (hstep (ho op List.mem_cons_self) h e) (fun x hx => ho x (List.mem_cons_of_mem _ hx)) e2

end Verif
