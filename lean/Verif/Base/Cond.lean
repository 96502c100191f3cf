import Verif.Base.Contract
import Verif.Spec.Cond
/-!
# Contracts for calls that may crash

As `Verif/Base/Contract.lean`, but nothing is claimed about calls that do not return.
-/

namespace Verif
open Spec
variable {σ : Type}

structure Cond (A : Algo σ) (cached : σ → Contents) (Inv : σ → Prop) (cs md : Nat) (p : Perms) (ok : Req → Prop) : Prop where
  csz : ∀ {s}, Inv s → A.cacheSize s = cs
  mdz : ∀ {s}, Inv s → A.md s = md
  nodup : ∀ {s}, Inv s → (cached s).ids.Nodup
  occ : ∀ {s}, Inv s → A.occ s = (charge md (cached s) : Nat)
  nObj : ∀ {s}, Inv s → A.nObj s = ((cached s).length : Nat)
  cap : ∀ {s}, Inv s → A.occ s ≤ (cs : Int)
  bump : ∀ {s}, Inv s → Inv (A.bump s) ∧ cached (A.bump s) = cached s
  can : ∀ {s} (r), Inv s → Inv (A.canInsert s r).2 ∧ cached (A.canInsert s r).2 = cached s
  findF : p.peek = true ∨ p.ins = true → ∀ {s b s'} (r), Inv s → A.find s r false = .ok (b, s') → b = decide (r.id ∈ (cached s).ids) ∧ s' = s
  findT : ∀ {s b s'} (r), Inv s → A.find s r true = .ok (b, s') → b = decide (r.id ∈ (cached s).ids) ∧ Inv s' ∧ (cached s').Subperm (cached s)
  evict : ∀ {s s'} (r), Inv s → A.evict s r = .ok s' → Inv s' ∧ (cached s').Subperm (cached s)
  insert : ∀ {s s'} (r), Inv s → ok r → r.id ∉ (cached s).ids → A.mustEvict s r = false → A.insert s r = .ok s' →
    Inv s' ∧ (cached s').Subperm ((r.id, r.size % u32) :: cached s)
  remove : p.rem = true → ∀ {s b s'} (id), Inv s → A.remove s id = .ok (b, s') →
    b = decide (id ∈ (cached s).ids) ∧ Inv s' ∧ (cached s').Perm ((cached s).filter (fun x => x.1 ≠ id))

section
variable {A : Algo σ} {cached : σ → Contents} {Inv : σ → Prop} {cs md : Nat} {p : Perms} {ok : Req → Prop}

theorem Cond.loop (C : Cond A cached Inv cs md p ok) (r : Req) :
    ∀ n s s', Inv s → A.evictLoop r n s = .ok s' → Inv s' ∧ (cached s').Subperm (cached s) ∧ A.mustEvict s' r = false := by
  intro n
  induction n with
  | zero =>
    intro s s' hi he
    unfold Algo.evictLoop at he
    cases hme : A.mustEvict s r with
    | false => simp [hme] at he; subst he; exact ⟨hi, List.Subperm.refl _, hme⟩
    | true => simp [hme] at he
  | succ n ih =>
    intro s s' hi he
    unfold Algo.evictLoop at he
    cases hme : A.mustEvict s r with
    | false => simp [hme] at he; subst he; exact ⟨hi, List.Subperm.refl _, hme⟩
    | true =>
      simp only [hme, if_true] at he
      rw [Res.bind_eq_ok] at he
      obtain ⟨s1, h1, h2⟩ := he
      obtain ⟨g1, g2⟩ := C.evict r hi h1
      obtain ⟨k1, k2, k3⟩ := ih s1 s' g1 h2
      exact ⟨k1, k2.trans g2, k3⟩

/-- How a `get` that returns went. -/
theorem get_cases {s s' : σ} {r : Req} {b : Bool} (h : A.get s r = .ok (b, s')) :
    (b = true ∧ A.find (A.bump s) r true = .ok (true, s')) ∨
    (b = false ∧ ∃ s1, A.find (A.bump s) r true = .ok (false, s1) ∧ (A.canInsert s1 r).1 = false ∧ s' = (A.canInsert s1 r).2) ∨
    (b = false ∧ ∃ s1 s3, A.find (A.bump s) r true = .ok (false, s1) ∧ (A.canInsert s1 r).1 = true ∧
      A.evictLoop r (A.fuel (A.canInsert s1 r).2) (A.canInsert s1 r).2 = .ok s3 ∧ A.insert s3 r = .ok s') := by
  unfold Algo.get at h
  rw [Res.bind_eq_ok] at h
  obtain ⟨⟨hit, s1⟩, h1, h2⟩ := h
  cases hit with
  | true => simp only [if_true] at h2; cases h2; exact .inl ⟨rfl, h1⟩
  | false =>
    simp only [Bool.false_eq_true, if_false] at h2
    rcases hc : A.canInsert s1 r with ⟨c, s2⟩
    simp only [hc] at h2
    cases c with
    | false => simp only [Bool.false_eq_true, if_false] at h2; cases h2; exact .inr (.inl ⟨rfl, s1, h1, by rw [hc], by rw [hc]⟩)
    | true =>
      simp only [if_true] at h2
      rw [Res.bind_eq_ok] at h2
      obtain ⟨s3, h3, h4⟩ := h2
      rw [Res.bind_eq_ok] at h4
      obtain ⟨s4, h5, h6⟩ := h4
      cases h6
      exact .inr (.inr ⟨rfl, s1, s3, h1, by rw [hc], by rw [hc]; exact h3, h5⟩)

theorem Cond.get (C : Cond A cached Inv cs md p ok) {s s' : σ} {b : Bool} (r : Req) (hok : ok r) (hi : Inv s) (h : A.get s r = .ok (b, s')) :
    b = decide (r.id ∈ (cached s).ids) ∧ Inv s' ∧
      (cached s').Subperm (if r.id ∈ (cached s).ids then cached s else (r.id, r.size % u32) :: cached s) := by
  obtain ⟨hb, hbc⟩ := C.bump hi
  rcases get_cases h with ⟨rfl, h1⟩ | ⟨rfl, s1, h1, _, rfl⟩ | ⟨rfl, s1, s3, h1, h2, h3, h4⟩
  · obtain ⟨g1, g2, g3⟩ := C.findT r hb h1
    rw [hbc] at g1 g3
    have : r.id ∈ (cached s).ids := by simpa using g1
    rw [if_pos this]
    exact ⟨g1, g2, g3⟩
  · obtain ⟨g1, g2, g3⟩ := C.findT r hb h1
    obtain ⟨k1, k2⟩ := C.can r g2
    rw [hbc] at g1 g3
    have : r.id ∉ (cached s).ids := by simpa using g1
    rw [if_neg this, k2]
    exact ⟨g1, k1, g3.trans (List.Sublist.subperm (List.sublist_cons_self _ _))⟩
  · obtain ⟨g1, g2, g3⟩ := C.findT r hb h1
    obtain ⟨k1, k2⟩ := C.can r g2
    rw [hbc] at g1 g3
    have hn : r.id ∉ (cached s).ids := by simpa using g1
    obtain ⟨l1, l2, l3⟩ := C.loop r _ _ _ k1 h3
    rw [k2] at l2
    obtain ⟨m1, m2⟩ := C.insert r l1 hok (notMem_ids_of_subperm (l2.trans g3) hn) l3 h4
    rw [if_neg hn]
    exact ⟨g1, m1, m2.trans ((List.subperm_cons _).2 (l2.trans g3))⟩

theorem Cond.step (C : Cond A cached Inv cs md p ok) {s s' : σ} {b : Bool} (op : Op) (hop : Calls p ok op) (hi : Inv s)
    (h : A.step s op = .ok (b, s')) : Inv s' ∧ StepRel cached s s' op := by
  cases op with
  | get r => exact (C.get r hop hi h).2
  | find r u =>
    simp only [Algo.step] at h
    cases u with
    | false =>
      obtain ⟨_, rfl⟩ := C.findF (Or.inl hop) r hi h
      exact ⟨hi, List.Subperm.refl _⟩
    | true => exact (C.findT r hi h).2
  | remove id =>
    simp only [Algo.step] at h
    obtain ⟨_, h1, h2⟩ := C.remove hop id hi h
    exact ⟨h1, h2.subperm.trans List.filter_sublist.subperm⟩
  | evict r =>
    simp only [Algo.step] at h
    split at h
    · rw [Res.bind_eq_ok] at h
      obtain ⟨s1, h1, h2⟩ := h
      cases h2
      exact C.evict r hi h1
    · cases h; exact ⟨hi, List.Subperm.refl _⟩
  | insert r =>
    simp only [Algo.step] at h
    rw [Res.bind_eq_ok] at h
    obtain ⟨⟨hit, s0⟩, h1, h2⟩ := h
    obtain ⟨g1, rfl⟩ := C.findF (Or.inr hop.1) r hi h1
    simp only at h2
    split at h2
    · rename_i hc
      rw [Res.bind_eq_ok] at h2
      obtain ⟨s1, h3, h4⟩ := h2
      cases h4
      have hn : r.id ∉ (cached s0).ids := by
        have := hc.1; rw [g1] at this; simpa using this
      exact C.insert r hi hop.2 hn hc.2 h3
    · cases h2; exact ⟨hi, List.Sublist.subperm (List.sublist_cons_self _ _)⟩

theorem Cond.reach (C : Cond A cached Inv cs md p ok) {s0 s : σ} {ops : List Op}
    {out : List Bool} (hi : Inv s0) (ho : ∀ op ∈ ops, Calls p ok op) (h : Reaches A s0 ops out s) : Inv s :=
  run_inv (P := Inv) (fun hop hi he => (C.step _ hop hi he).1) hi ho h

theorem Cond.capacity (C : Cond A cached Inv cs md p ok) {s0 : σ} (h0 : Inv s0) : Capacity A s0 (Calls p ok) cs := by
  intro ops out s ho h
  exact C.cap (C.reach h0 ho h)

theorem Cond.accounting (C : Cond A cached Inv cs md p ok) {s0 : σ} (h0 : Inv s0) : Accounting A cached s0 (Calls p ok) md := by
  intro ops out s ho h
  have hi := C.reach h0 ho h
  exact ⟨by rw [bytes_eq_charge]; exact C.occ hi, C.nObj hi⟩

theorem Cond.hitIffCached (C : Cond A cached Inv cs md p ok) {s0 : σ} (h0 : Inv s0) : HitIffCachedIf A cached s0 (Calls p ok) := by
  intro ops out s ho h
  have hi := C.reach h0 ho h
  exact ⟨fun r b s' hp hf => C.findF (Or.inl hp) r hi hf, fun r b s' _ hf => (C.findT r hi hf).1, fun r b s' hr hg => (C.get r hr hi hg).1⟩

theorem Cond.removeExact (C : Cond A cached Inv cs md p ok) {s0 : σ} (h0 : Inv s0) : RemoveExactIf A cached s0 (Calls p ok) := by
  intro ops out s ho h id b s' hp hr
  obtain ⟨h1, _, h3⟩ := C.remove hp id (C.reach h0 ho h) hr
  exact ⟨h1, h3⟩

theorem Cond.addsOnlyRequested (C : Cond A cached Inv cs md p ok) {s0 : σ} (h0 : Inv s0) : AddsOnlyRequested A cached s0 (Calls p ok) := by
  intro ops out s ho h op b s' hop hst x hx
  obtain ⟨_, h3⟩ := C.step op hop (C.reach h0 ho h) hst
  cases op with
  | get r =>
    simp only [StepRel] at h3
    split at h3
    · exact Or.inl (h3.subset hx)
    · rcases List.mem_cons.1 (h3.subset hx) with h | h
      · exact Or.inr ⟨r, rfl, h⟩
      · exact Or.inl h
  | insert r =>
    rcases List.mem_cons.1 (h3.subset hx) with h | h
    · exact Or.inr ⟨r, rfl, h⟩
    · exact Or.inl h
  | find r u => exact Or.inl (h3.subset hx)
  | evict r => exact Or.inl (h3.subset hx)
  | remove id => exact Or.inl (h3.subset hx)

/-- The last call of a run. -/
theorem run_last {s0 s : σ} {ops : List Op} {op : Op} {out : List Bool} (h : Reaches A s0 (ops ++ [op]) out s) :
    ∃ out1 s1 b, Reaches A s0 ops out1 s1 ∧ A.step s1 op = .ok (b, s) ∧ out = out1 ++ [b] := by
  unfold Reaches at h
  rw [run_append, Res.bind_eq_ok] at h
  obtain ⟨⟨o1, s1⟩, h1, h2⟩ := h
  simp only at h2
  rw [Res.bind_eq_ok] at h2
  obtain ⟨⟨o2, s2⟩, h3, h4⟩ := h2
  cases h4
  simp only [Algo.run] at h3
  rw [Res.bind_eq_ok] at h3
  obtain ⟨⟨b, s3⟩, h5, h6⟩ := h3
  cases h6
  exact ⟨o1, s1, b, h1, h5, rfl⟩

theorem Cond.noPhantom (C : Cond A cached Inv cs md p ok) {s0 : σ} (h0 : Inv s0) (hempty : cached s0 = []) :
    NoPhantom A cached s0 (Calls p ok) := by
  intro ops
  induction ops using List.reverseRecOn with
  | nil =>
    intro out s _ h
    simp only [Reaches, Algo.run] at h
    cases h
    exact ⟨C.nodup h0, by simp [hempty]⟩
  | append_singleton ops op ih =>
    intro out s ho h
    refine ⟨C.nodup (C.reach h0 ho h), ?_⟩
    have ho' : ∀ o ∈ ops, Calls p ok o := fun o h => ho o (by simp [h])
    obtain ⟨out1, s1, b, hr1, hst, rfl⟩ := run_last h
    have hi1 := C.reach h0 ho' hr1
    obtain ⟨_, hph⟩ := ih out1 s1 ho' hr1
    obtain ⟨_, hrel⟩ := C.step op (ho op (by simp)) hi1 hst
    intro x hx
    have old : x ∈ cached s1 → op ≠ Op.remove x.1 → ∃ pre op' post r, ops ++ [op] = pre ++ op' :: post ∧
        insertedBy op' = some r ∧ r.id = x.1 ∧ r.size % u32 = x.2 ∧ Op.remove x.1 ∉ post := by
      intro hx hne
      obtain ⟨pre, op', post, r, h1, h2, h3, h4, h5⟩ := hph x hx
      refine ⟨pre, op', post ++ [op], r, by simp [h1], h2, h3, h4, ?_⟩
      simp only [List.mem_append, List.mem_singleton, not_or]
      exact ⟨h5, fun e => hne e.symm⟩
    have new : ∀ r, insertedBy op = some r → x = (r.id, r.size % u32) → ∃ pre op' post r, ops ++ [op] = pre ++ op' :: post ∧
        insertedBy op' = some r ∧ r.id = x.1 ∧ r.size % u32 = x.2 ∧ Op.remove x.1 ∉ post := by
      intro r hr hxr
      exact ⟨ops, op, [], r, rfl, hr, by simp [hxr], by simp [hxr], by simp⟩
    cases op with
    | get r =>
      simp only [StepRel] at hrel
      split at hrel
      · exact old (hrel.subset hx) (by simp)
      · rcases List.mem_cons.1 (hrel.subset hx) with h | h
        · exact new r rfl h
        · exact old h (by simp)
    | insert r =>
      rcases List.mem_cons.1 (hrel.subset hx) with h | h
      · exact new r rfl h
      · exact old h (by simp)
    | find r u => exact old (hrel.subset hx) (by simp)
    | evict r => exact old (hrel.subset hx) (by simp)
    | remove id =>
      refine old (hrel.subset hx) (fun e => ?_)
      injection e with e
      simp only [Algo.step] at hst
      obtain ⟨_, _, h3⟩ := C.remove (ho (Op.remove id) (by simp)) id hi1 hst
      have := h3.subset hx
      rw [e] at this
      simp at this

end

/-- Additional facts for algorithms whose hits evict nothing, whose `evict` drops at most one object per call and whose `insert` always
caches the object. -/
structure CondStrong {κ : Type} (A : Algo σ) (cached : σ → Contents) (Inv : σ → Prop) (cs md : Nat) (p : Perms) (ok : Req → Prop)
    (admits : σ → Req → Bool) (core : σ → κ) : Prop
    extends Cond A cached Inv cs md p ok where
  hitPerm : ∀ {s s'} (r), Inv s → A.find s r true = .ok (true, s') → (cached s').Perm (cached s)
  missQuiet : ∀ {s s'} (r), Inv s → A.find s r true = .ok (false, s') → s' = s
  admitsEq : ∀ {s} (r), Inv s → (A.canInsert (A.bump s) r).1 = admits s r
  coreEq : ∀ {s} (r), Inv s → core (A.canInsert (A.bump s) r).2 = core s
  evictAtMostOne : ∀ {s s'} (r), Inv s → A.evict s r = .ok s' → ∃ vs : Contents, vs.length ≤ 1 ∧ (cached s).Perm (vs ++ cached s')
  insertPerm : ∀ {s s'} (r), Inv s → ok r → r.id ∉ (cached s).ids → A.mustEvict s r = false → A.insert s r = .ok s' →
    (cached s').Perm ((r.id, r.size % u32) :: cached s)

section
variable {κ : Type} {A : Algo σ} {cached : σ → Contents} {Inv : σ → Prop} {cs md : Nat} {p : Perms} {ok : Req → Prop}
  {admits : σ → Req → Bool} {core : σ → κ}

/-- The eviction loop in detail: the victims, and none too many. -/
theorem CondStrong.loop (C : CondStrong A cached Inv cs md p ok admits core) (r : Req) :
    ∀ n s s', Inv s → A.evictLoop r n s = .ok s' → ∃ vs, (cached s).Perm (vs ++ cached s') ∧
        ∀ us v, vs = us ++ [v] → charge md (v :: cached s') + r.size + md > cs := by
  intro n
  induction n with
  | zero =>
    intro s s' hi he
    unfold Algo.evictLoop at he
    cases hme : A.mustEvict s r with
    | false => simp [hme] at he; subst he; exact ⟨[], by simp, by simp⟩
    | true => simp [hme] at he
  | succ n ih =>
    intro s s' hi he
    unfold Algo.evictLoop at he
    cases hme : A.mustEvict s r with
    | false => simp [hme] at he; subst he; exact ⟨[], by simp, by simp⟩
    | true =>
      simp only [hme, if_true] at he
      rw [Res.bind_eq_ok] at he
      obtain ⟨s1, he, h1⟩ := he
      obtain ⟨hi1, hsub⟩ := C.evict r hi he
      obtain ⟨vs1, hlen, hp1⟩ := C.evictAtMostOne r hi he
      obtain ⟨vs, h5, h6⟩ := ih s1 s' hi1 h1
      refine ⟨vs1 ++ vs, ?_, ?_⟩
      · rw [List.append_assoc]; exact hp1.trans (h5.append_left vs1)
      · intro us v huv
        rcases List.eq_nil_or_concat vs with rfl | ⟨ws, w, rfl⟩
        · have hocc := C.occ hi
          have hmd := C.mdz hi
          have hcs := C.csz hi
          simp only [Algo.mustEvict, decide_eq_true_eq] at hme
          rw [hocc, hmd, hcs] at hme
          match vs1, hlen with
          | [], _ => simp at huv
          | [w], _ =>
            simp only [List.append_nil] at huv
            have hv : w = v := by
              cases us with
              | nil => simpa using huv
              | cons a us => simp at huv
            subst hv
            have e1 := charge_perm (md := md) hp1
            have e2 := charge_perm (md := md) h5
            simp only [List.singleton_append, List.nil_append] at e1 e2
            simp only [charge] at e1 ⊢
            omega
        · have : ws ++ [w] = (us.drop vs1.length) ++ [v] ∧ w = v := by
            have hh : vs1 ++ ws ++ [w] = us ++ [v] := by simpa using huv
            obtain ⟨ha, hb⟩ := List.append_inj' hh rfl
            refine ⟨?_, by simpa using hb⟩
            rw [← ha]; simp only [List.drop_left]; simpa using hb
          have hw : ws.concat w = us.drop vs1.length ++ [v] := by rw [List.concat_eq_append]; exact this.1
          exact h6 _ v hw

theorem CondStrong.missGet (C : CondStrong A cached Inv cs md p ok admits core) {s s' : σ} {b : Bool} (r : Req)
    (hok : ok r) (hi : Inv s) (hn : r.id ∉ (cached s).ids) (h : A.get s r = .ok (b, s')) :
    b = false ∧ ((admits s r = false ∧ core s' = core s ∧ cached s' = cached s) ∨
    (admits s r = true ∧ ∃ vs kept, (cached s).Perm (vs ++ kept) ∧ (cached s').Perm ((r.id, r.size % u32) :: kept) ∧
        ∀ us v, vs = us ++ [v] → charge md (v :: kept) + r.size + md > cs)) := by
  obtain ⟨hb, hbc⟩ := C.bump hi
  have had := C.admitsEq r hi
  have hco := C.coreEq r hi
  rcases get_cases h with ⟨rfl, h1⟩ | ⟨rfl, s1, h1, h2, rfl⟩ | ⟨rfl, s1, s3, h1, h2, h3, h4⟩
  · obtain ⟨g1, _⟩ := C.findT r hb h1
    rw [hbc] at g1
    exact absurd (by simpa using g1) hn
  · obtain rfl := C.missQuiet r hb h1
    rw [h2] at had
    refine ⟨rfl, .inl ⟨had.symm, hco, ?_⟩⟩
    rw [(C.can r hb).2, hbc]
  · obtain rfl := C.missQuiet r hb h1
    rw [h2] at had
    obtain ⟨k1, k2⟩ := C.can r hb
    obtain ⟨l1, l2, l3⟩ := C.toCond.loop r _ _ _ k1 h3
    obtain ⟨vs, v1, v2⟩ := C.loop r _ _ _ k1 h3
    rw [k2, hbc] at l2 v1
    have k3 := C.insertPerm r l1 hok (notMem_ids_of_subperm l2 hn) l3 h4
    exact ⟨rfl, .inr ⟨had.symm, vs, cached s3, v1, k3, v2⟩⟩

theorem CondStrong.admittedMissCached (C : CondStrong A cached Inv cs md p ok admits core) {s0 : σ}
    (h0 : Inv s0) : AdmittedMissCachedIf A cached admits s0 (Calls p ok) := by
  intro ops out s ho h r b s' hr hn ha hg
  obtain ⟨h1, h2⟩ := C.missGet r hr (C.reach h0 ho h) hn hg
  rcases h2 with ⟨hf, _⟩ | ⟨_, vs, kept, _, h2, _⟩
  · rw [ha] at hf; simp at hf
  · exact ⟨h1, h2.symm.subset (by simp)⟩

theorem CondStrong.rejectQuiet (C : CondStrong A cached Inv cs md p ok admits core) {s0 : σ}
    (h0 : Inv s0) : RejectQuietIf A cached admits core s0 (Calls p ok) := by
  intro ops out s ho h r b s' hr hn ha hg
  obtain ⟨h1, h2⟩ := C.missGet r hr (C.reach h0 ho h) hn hg
  rcases h2 with ⟨_, h2, _⟩ | ⟨ht, _⟩
  · exact ⟨h1, h2⟩
  · rw [ha] at ht; simp at ht

theorem CondStrong.evictOnDemand (C : CondStrong A cached Inv cs md p ok admits core) {s0 : σ}
    (h0 : Inv s0) : EvictOnDemand A cached s0 (Calls p ok) cs md := by
  intro ops out s ho h r b s' hr hg
  have hi := C.reach h0 ho h
  obtain ⟨hb, hbc⟩ := C.bump hi
  by_cases hin : r.id ∈ (cached s).ids
  · obtain ⟨g1, _, _⟩ := C.get r hr hi hg
    rw [decide_eq_true hin] at g1
    subst g1
    rcases get_cases hg with ⟨_, h1⟩ | ⟨h1, _⟩ | ⟨h1, _⟩
    · have hp := C.hitPerm r hb h1
      rw [hbc] at hp
      exact ⟨fun _ => hp, by simp⟩
    · cases h1
    · cases h1
  · obtain ⟨rfl, h2⟩ := C.missGet r hr hi hin hg
    rcases h2 with ⟨_, _, h2⟩ | ⟨_, vs, kept, hp, hp', hmin⟩
    · exact ⟨by simp, fun _ => ⟨[], cached s, by simp, Or.inl (by rw [h2]), by simp⟩⟩
    · refine ⟨by simp, fun _ => ⟨vs, kept, hp, Or.inr hp', fun us v hu => ?_⟩⟩
      rw [bytes_eq_charge]; exact hmin us v hu

end
end Verif
