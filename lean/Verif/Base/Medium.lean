import Verif.Base.Contract
/-!
# Contracts for algorithms whose `find` changes state on a miss or whose `insert` may decline

Helper file.  `Medium` asks less than `Strong`: a miss may update bookkeeping (ghost queues), and `insert` may return
without caching the object.
-/

namespace Verif
open Spec
variable {σ : Type}

/-- The eviction loop drops at most one object per call of `evict`. -/
structure OneByOne (A : Algo σ) (cached : σ → Contents) (Inv : σ → Prop) (Ready : σ → Req → Prop)
    (measure : σ → Nat) (cs md : Nat) (p : Perms) (ok : Req → Prop) : Prop
    extends Contract A cached Inv Ready measure cs md p ok where
  evictAtMostOne : ∀ {s s'} (r), Inv s → ok r → Ready s r → r.id ∉ (cached s).ids → A.mustEvict s r = true →
    A.evict s r = .ok s' → ∃ vs : Contents, vs.length ≤ 1 ∧ (cached s).Perm (vs ++ cached s')

/-- In addition, a hit evicts nothing. -/
structure Medium (A : Algo σ) (cached : σ → Contents) (Inv : σ → Prop) (Ready : σ → Req → Prop)
    (measure : σ → Nat) (cs md : Nat) (p : Perms) (ok : Req → Prop) : Prop
    extends OneByOne A cached Inv Ready measure cs md p ok where
  hitPerm : ∀ {s s'} (r), Inv s → A.find s r true = .ok (true, s') → (cached s').Perm (cached s)

/-- `insert` adds the object or leaves the contents alone. -/
def InsertOr (A : Algo σ) (cached : σ → Contents) (Inv : σ → Prop) (Ready : σ → Req → Prop) (ok : Req → Prop) : Prop :=
  ∀ {s s' : σ} (r : Req), Inv s → ok r → Ready s r → r.id ∉ (cached s).ids → A.mustEvict s r = false →
    A.insert s r = .ok s' → (cached s').Perm ((r.id, r.size % u32) :: cached s) ∨ (cached s').Perm (cached s)

section
variable {A : Algo σ} {cached : σ → Contents} {Inv : σ → Prop} {Ready : σ → Req → Prop}
  {measure : σ → Nat} {cs md : Nat} {p : Perms} {ok : Req → Prop}

/-- The eviction loop in detail: the victims, and none too many. -/
theorem OneByOne.victims (C : OneByOne A cached Inv Ready measure cs md p ok) (r : Req) (hok : ok r) :
    ∀ n s, Inv s → Ready s r → r.id ∉ (cached s).ids → measure s ≤ n →
      ∃ s' vs, A.evictLoop r n s = .ok s' ∧ Inv s' ∧ Ready s' r ∧ A.mustEvict s' r = false ∧
        (cached s).Perm (vs ++ cached s') ∧
        ∀ us v, vs = us ++ [v] → charge md (v :: cached s') + r.size + md > cs := by
  intro n
  induction n with
  | zero =>
    intro s hi hr hn hm
    cases hme : A.mustEvict s r with
    | false => exact ⟨s, [], by simp [Algo.evictLoop, hme], hi, hr, hme, by simp, by simp⟩
    | true =>
      obtain ⟨s', _, _, _, _, hlt⟩ := C.evictLoop r hi hok hr hn hme
      omega
  | succ n ih =>
    intro s hi hr hn hm
    cases hme : A.mustEvict s r with
    | false => exact ⟨s, [], by simp [Algo.evictLoop, hme], hi, hr, hme, by simp, by simp⟩
    | true =>
      obtain ⟨s1, he, hi1, hr1, hsub, hlt⟩ := C.evictLoop r hi hok hr hn hme
      obtain ⟨vs1, hlen, hp1⟩ := C.evictAtMostOne r hi hok hr hn hme he
      obtain ⟨s', vs, h1, h2, h3, h4, h5, h6⟩ := ih s1 hi1 hr1 (notMem_ids_of_subperm hsub hn) (by omega)
      refine ⟨s', vs1 ++ vs, by simp [Algo.evictLoop, hme, he, h1], h2, h3, h4, ?_, ?_⟩
      · rw [List.append_assoc]; exact hp1.trans (h5.append_left vs1)
      · intro us v huv
        rcases List.eq_nil_or_concat vs with rfl | ⟨ws, w, rfl⟩
        · -- the last victim was evicted in this round, when the object did not fit yet
          have hocc := C.occ hi
          have hmd := C.mdz hi
          have hcs := C.csz hi
          simp only [Algo.mustEvict, decide_eq_true_eq] at hme
          rw [hocc, hmd, hcs] at hme
          match vs1, hlen with
          | [], _ => simp at huv
          | [w], _ =>
            simp only [List.append_nil] at huv
            have hv : w = v := by
              cases us with
              | nil => simpa using huv
              | cons a us => simp at huv
            subst hv
            have e1 := charge_perm (md := md) hp1
            have e2 := charge_perm (md := md) h5
            simp only [List.singleton_append, List.nil_append] at e1 e2
            simp only [charge] at e1 ⊢
            omega
        · have : ws ++ [w] = (us.drop vs1.length) ++ [v] ∧ w = v := by
            have hh : vs1 ++ ws ++ [w] = us ++ [v] := by simpa using huv
            obtain ⟨ha, hb⟩ := List.append_inj' hh rfl
            refine ⟨?_, by simpa using hb⟩
            rw [← ha]; simp only [List.drop_left]; simpa using hb
          have hw : ws.concat w = us.drop vs1.length ++ [v] := by rw [List.concat_eq_append]; exact this.1
          exact h6 _ v hw

/-- A miss in detail. -/
theorem OneByOne.miss (C : OneByOne A cached Inv Ready measure cs md p ok) {s : σ} (r : Req)
    (hok : ok r) (hi : Inv s) (hn : r.id ∉ (cached s).ids) :
    ∃ s1, A.find (A.bump s) r true = .ok (false, s1) ∧ Inv s1 ∧
    (((A.canInsert s1 r).1 = false ∧ A.get s r = .ok (false, (A.canInsert s1 r).2) ∧
        (cached (A.canInsert s1 r).2).Perm (cached s)) ∨
     ((A.canInsert s1 r).1 = true ∧ ∃ s3 s4 vs, A.get s r = .ok (false, s4) ∧
        Inv s3 ∧ Ready s3 r ∧ r.id ∉ (cached s3).ids ∧ A.mustEvict s3 r = false ∧ A.insert s3 r = .ok s4 ∧ Inv s4 ∧
        A.evictLoop r (A.fuel (A.canInsert s1 r).2) (A.canInsert s1 r).2 = .ok s3 ∧
        (cached s).Perm (vs ++ cached s3) ∧
        ∀ us v, vs = us ++ [v] → charge md (v :: cached s3) + r.size + md > cs)) := by
  obtain ⟨hb, hbc⟩ := C.bump hi
  have hnb : r.id ∉ (cached (A.bump s)).ids := by rw [hbc]; exact hn
  obtain ⟨s1, hf, hi1, hp1, hi2, hp2, hrd⟩ := C.findMiss r hb hnb (Fresh.bump hok hi)
  rw [hbc] at hp2
  refine ⟨s1, hf, hi1, ?_⟩
  rcases hcc : A.canInsert s1 r with ⟨c, s2⟩
  simp only [hcc] at hi2 hp2 hrd
  cases c with
  | false => exact Or.inl ⟨rfl, get_reject hf hcc, hp2⟩
  | true =>
    right
    have hn2 : r.id ∉ (cached s2).ids := notMem_ids_of_subperm hp2.subperm hn
    obtain ⟨s3, vs, h1, h2, h3, h4, h5, h6⟩ := C.victims r hok (A.fuel s2) s2 hi2 (hrd rfl hok) hn2 (C.fuel hi2)
    have hn3 : r.id ∉ (cached s3).ids := by
      refine notMem_ids_of_subperm ?_ hn2
      exact (List.Sublist.subperm (List.sublist_append_right vs _)).trans h5.symm.subperm
    obtain ⟨s4, k1, k2, _⟩ := C.insert r h2 hok h3 hn3 h4
    exact ⟨rfl, s3, s4, vs, get_accept hf hcc h1 k1, h2, h3, hn3, h4, k1, k2, h1, hp2.symm.trans h5, h6⟩

theorem OneByOne.evictOnDemand (C : OneByOne A cached Inv Ready measure cs md p ok) {s0 : σ} (h0 : Inv s0)
    (hit : ∀ {s s' : σ} (r : Req), Inv s → ok r → A.find (A.bump s) r true = .ok (true, s') → (cached s').Perm (cached s)) (hor : InsertOr A cached Inv Ready ok) : EvictOnDemand A cached s0 (Calls p ok) cs md := by
  intro ops out s ho h r b s' hr hg
  have hi := C.reach h0 ho h
  obtain ⟨hb, hbc⟩ := C.bump hi
  by_cases hin : r.id ∈ (cached s).ids
  · have hin' : r.id ∈ (cached (A.bump s)).ids := by rw [hbc]; exact hin
    obtain ⟨s1, hf, _⟩ := C.findHit r hb hin' (Fresh.bump hr hi)
    have hp := hit r hi hr hf
    rw [get_hit hf] at hg
    cases hg
    exact ⟨fun _ => hp, by simp⟩
  · obtain ⟨s1, _, _, h⟩ := C.miss r hr hi hin
    rcases h with ⟨_, hg', hp⟩ | ⟨_, s3, s4, vs, hg', h3, hrd, hn3, hme, hins, _, _, hp, hlast⟩
    · rw [hg'] at hg; cases hg
      exact ⟨by simp, fun _ => ⟨[], cached s, by simp, Or.inl hp, by simp⟩⟩
    · rw [hg'] at hg; cases hg
      refine ⟨by simp, fun _ => ⟨vs, cached s3, hp, ?_, ?_⟩⟩
      · rcases hor r h3 hr hrd hn3 hme hins with h | h
        · exact Or.inr h
        · exact Or.inl h
      · intro us v huv
        rw [bytes_eq_charge]
        exact hlast us v huv

theorem Medium.evictOnDemand (C : Medium A cached Inv Ready measure cs md p ok) {s0 : σ}
    (h0 : Inv s0) (hor : InsertOr A cached Inv Ready ok) : EvictOnDemand A cached s0 (Calls p ok) cs md :=
  C.toOneByOne.evictOnDemand h0 (fun r hi _ hf => by
    obtain ⟨hb, hbc⟩ := C.bump hi
    rw [← hbc]
    exact C.hitPerm r hb hf) hor

end
end Verif
