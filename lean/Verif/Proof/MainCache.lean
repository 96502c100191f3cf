import Verif.Proof.Ghost
import Verif.Proof.Sim
import Verif.Proof.Clock
import Verif.Proof.Sieve
import Verif.Algo.QDLP
/-!
# A cache used as a part of another cache

Helper file.  `MainCache` lists what a cache must do to serve as the main cache of a composite one.
-/

namespace Verif
open Spec
variable {σ μ τ : Type}

structure MainCache (M : Algo τ) (cached : τ → Contents) (Inv : τ → Prop) (zero : τ → ObjId → Bool) (ms : Nat) : Prop where
  nodup : ∀ {s}, Inv s → (cached s).ids.Nodup
  occ : ∀ {s}, Inv s → M.occ s = (charge 0 (cached s) : Nat)
  nObj : ∀ {s}, Inv s → M.nObj s = ((cached s).length : Nat)
  cap : ∀ {s}, Inv s → charge 0 (cached s) ≤ ms
  findF : ∀ {s} (r), Inv s → M.find s r false = .ok (decide (r.id ∈ (cached s).ids), s)
  findT : ∀ {s} (r), Inv s → ∃ s', M.find s r true = .ok (decide (r.id ∈ (cached s).ids), s') ∧ Inv s' ∧ (cached s').Perm (cached s)
  getMiss : ∀ {s} (r : Req), Inv s → r.id ∉ (cached s).ids →
    (¬ r.size ≤ ms ∧ ∃ s', M.get s r = .ok (false, s') ∧ Inv s' ∧ (cached s').Perm (cached s)) ∨
    (r.size ≤ ms ∧ ∃ s' vs kept, M.get s r = .ok (false, s') ∧ Inv s' ∧ (cached s).Perm (vs ++ kept) ∧
      (cached s').Perm ((r.id, r.size % u32) :: kept) ∧ zero s' r.id = true ∧
      ∀ us v, vs = us ++ [v] → charge 0 (v :: kept) + r.size > ms)
  evict : ∀ {s} (r), Inv s → cached s ≠ [] → ∃ s' v, M.evict s r = .ok s' ∧ Inv s' ∧ (cached s).Perm (v :: cached s')
  remove : ∀ {s} (id), Inv s → ∃ s', M.remove s id = .ok (decide (id ∈ (cached s).ids), s') ∧ Inv s' ∧
    (cached s').Perm ((cached s).filter (fun x => x.1 ≠ id))

/-- The state from which `get` inserts. -/
theorem Strong.get_inserted {κ : Type} {A : Algo σ} {cached : σ → Contents} {Inv : σ → Prop} {Ready : σ → Req → Prop}
    {measure : σ → Nat} {cs md : Nat} {p : Perms} {ok : Req → Prop} {admits : σ → Req → Bool} {core : σ → κ}
    (C : Strong A cached Inv Ready measure cs md p ok admits core) {s : σ} (r : Req)
    (hok : ok r) (hi : Inv s) (hn : r.id ∉ (cached s).ids) (had : admits s r = true) :
    ∃ s3 s', A.get s r = .ok (false, s') ∧ A.insert s3 r = .ok s' ∧ Inv s3 ∧ r.id ∉ (cached s3).ids := by
  obtain ⟨hb, hbc⟩ := C.bump hi
  have hnb : r.id ∉ (cached (A.bump s)).ids := by rw [hbc]; exact hn
  obtain ⟨s1, hf, hi1, hp1, hi2, hp2, hrd⟩ := C.findMiss r hb hnb (Fresh.bump hok hi)
  have hq := C.missQuiet r hb hnb
  rw [hf] at hq; cases hq
  have hade := C.admitsEq r hi
  rw [hbc] at hp2
  rcases hcc : A.canInsert (A.bump s) r with ⟨c, s2⟩
  simp only [hcc] at hade hi2 hp2 hrd
  rw [had] at hade
  subst hade
  have hn2 : r.id ∉ (cached s2).ids := notMem_ids_of_subperm hp2.subperm hn
  obtain ⟨s3, vs, h1, h2, h3, h4, h5, h6⟩ := C.loop r hok (A.fuel s2) s2 hi2 (hrd rfl hok) hn2 (C.fuel hi2)
  have hn3 : r.id ∉ (cached s3).ids := by
    refine notMem_ids_of_subperm ?_ hn2
    exact (List.Sublist.subperm (List.sublist_append_right vs _)).trans h5.symm.subperm
  obtain ⟨s4, k1, k2, _⟩ := C.insert r h2 hok h3 hn3 h4
  exact ⟨s3, s4, get_accept hf hcc h1 k1, k1, h2, hn3⟩

/-- A cache that keeps its objects in one table and follows a textbook discipline can be a main cache, if it has no admission policy and
counts no metadata. -/
theorem MainCache.ofSim {A : Algo σ} {base : σ → Base μ} {setBase : σ → Base μ → σ} {Inv : σ → Prop} {ms : Nat} {D : Discipline τ} {view : σ → τ}
    (S : SBSpec A base setBase Inv ms 0) (M : Sim A base setBase Inv ms 0 D view)
    (hz : ∀ {s s'} (r : Req), Inv s → (base s).lookup r.id = none → A.insert s r = .ok s' → QDLP.zeroFreq (base s') r.id = true) :
    MainCache A (fun s => (base s).cached) (fun s => Inv s ∧ (base s).adm = .none) (fun s id => QDLP.zeroFreq (base s) id) ms := by
  have C : SBStrong A base Inv ms 0 (fun _ => ()) := S.strong (fun _ => ()) (fun _ _ _ => rfl)
  refine ⟨fun h => C.nodup h.1, fun h => C.occ h.1, fun h => C.nObj h.1, ?_, fun r h => C.findF (Or.inl rfl) r h.1, ?_, ?_, ?_, ?_⟩
  · intro s h
    have h1 := C.cap h.1
    rw [C.occ h.1] at h1
    exact Int.ofNat_le.1 h1
  · intro s r h
    cases hl : (base s).lookup r.id with
    | none =>
      have hn := lookup_none_iff'.1 hl
      exact ⟨s, by rw [S.findMiss r h.1 hl, decide_eq_false hn], h, List.Perm.refl _⟩
    | some o =>
      obtain ⟨s', h1, h2, h3⟩ := S.findHit r o h.1 hl
      have hin : r.id ∈ (base s).cached.ids := by
        have : ((base s).lookup r.id).isSome = true := by rw [hl]; rfl
        rw [lookup_isSome_iff] at this
        simpa using this
      exact ⟨s', by rw [h1, decide_eq_true hin], ⟨h2, by rw [(M.findHit r o h.1 hl h1).2]; exact h.2⟩, h3⟩
  · intro s r h hn
    have hadm : ∀ {b s'}, A.get s r = .ok (b, s') → (base s').adm = .none := by
      intro b s' hg
      obtain ⟨b', s'', k1, _, k3⟩ := M.step S (.get r) (sizeOk_zero r) h.1
      rw [show A.step s (.get r) = A.get s r from rfl, hg] at k1
      cases k1
      have e := congrArg (fun x => x.2.adm) k3
      simp only [tstep, tget] at e
      rw [show (tview base view s').adm = (base s').adm from rfl] at e
      rw [← e]
      have : (tview base view s).adm = .none := h.2
      rw [this]
      simp only [Adm.admit]
      split
      · rfl
      · split <;> rfl
    have had : admitsBase (base s) r = decide (r.size ≤ ms) := by
      simp only [admitsBase, h.2, Adm.admit, (S.inv h.1).md, (S.inv h.1).cs, Bool.true_and, Nat.add_zero]
    rcases C.get r (sizeOk_zero r) h.1 hn with ⟨hf, s', h1, h2, _, h4⟩ | ⟨ht, s', vs, kept, h1, h2, h3, h4, h5⟩
    · rw [had] at hf
      exact Or.inl ⟨by simpa using hf, s', h1, ⟨h2, hadm h1⟩, h4⟩
    · obtain ⟨s3, s'', k1, k2, k3, k4⟩ := C.get_inserted r (sizeOk_zero r) h.1 hn ht
      rw [h1] at k1
      cases k1
      rw [had] at ht
      exact Or.inr ⟨by simpa using ht, s', vs, kept, h1, ⟨h2, hadm h1⟩, h3, h4, hz r k3 (lookup_none_iff'.2 k4) k2,
        fun us v e => by simpa using h5 us v e⟩
  · intro s r h hne
    have hne' : (base s).tbl ≠ [] := by intro h0; simp [Base.cached, h0] at hne
    obtain ⟨s', v, h1, h2, h3⟩ := S.evict r h.1 hne' (.inl rfl)
    exact ⟨s', v, h1, ⟨h2, by rw [(M.evict r h.1 hne' h1).2]; exact h.2⟩, h3⟩
  · intro s id h
    obtain ⟨s', h1, h2, h3⟩ := S.removeFull id h.1
    refine ⟨s', h1, ⟨h2, ?_⟩, h3⟩
    cases hl : (base s).lookup id with
    | none =>
      rw [S.removeMiss rfl id h.1 hl] at h1
      injection h1 with h1
      injection h1 with _ h1
      rw [← h1]
      exact h.2
    | some o =>
      have hin : id ∈ (base s).cached.ids := by
        have : ((base s).lookup id).isSome = true := by rw [hl]; rfl
        rw [lookup_isSome_iff] at this
        simpa using this
      rw [decide_eq_true hin] at h1
      rw [(M.remove id o h.1 hl h1).2]
      exact h.2

theorem zeroFreq_insertBase {b : Base μ} (z : μ) (r : Req) : QDLP.zeroFreq (b.insertBase z r) r.id = true := by
  have : (b.insertBase z r).lookup r.id = some (Obj.ofReq z r) := by rw [lookup_insertBase]; simp
  simp [QDLP.zeroFreq, this, Obj.ofReq]

theorem zeroFreq_qinsert {z : μ} {s s' : QState μ} {r : Req} (h : QState.insert z s r = .ok s') : QDLP.zeroFreq s'.base r.id = true := by
  unfold QState.insert at h
  obtain ⟨q, h1, h2⟩ := Res.bind_eq_ok.1 h
  cases h2
  exact zeroFreq_insertBase z r

theorem MainCache.lru (ms : Nat) : MainCache LRU.algo (fun s => s.base.cached) (fun s => QInv ms 0 s ∧ s.base.adm = .none)
    (fun s id => QDLP.zeroFreq s.base id) ms :=
  MainCache.ofSim (LRU.spec ms 0) (LRU.sim ms 0) (fun _ _ _ h => zeroFreq_qinsert h)

theorem MainCache.fifo (ms : Nat) : MainCache FIFO.algo (fun s => s.base.cached) (fun s => QInv ms 0 s ∧ s.base.adm = .none)
    (fun s id => QDLP.zeroFreq s.base id) ms :=
  MainCache.ofSim (FIFO.spec ms 0) (FIFO.sim ms 0) (fun _ _ _ h => zeroFreq_qinsert h)

theorem MainCache.clock (ms mf : Nat) : MainCache Clock.algo (fun s => s.base.cached) (fun s => Clock.Inv ms 0 mf s ∧ s.base.adm = .none)
    (fun s id => QDLP.zeroFreq s.base id) ms :=
  MainCache.ofSim (Clock.spec ms 0 mf) (Clock.sim ms 0 mf) (fun {s s'} r _ _ h => by
    have h : Clock.insert s r = .ok s' := h
    unfold Clock.insert at h
    obtain ⟨q, h1, h2⟩ := Res.bind_eq_ok.1 h
    cases h2
    exact zeroFreq_qinsert (s' := q) h1)

theorem MainCache.sieve (ms : Nat) : MainCache Sieve.algo (fun s => s.base.cached) (fun s => Sieve.Inv ms 0 s ∧ s.base.adm = .none)
    (fun s id => QDLP.zeroFreq s.base id) ms :=
  MainCache.ofSim (Sieve.spec ms 0) (Sieve.sim ms 0) (fun {s s'} r _ _ h => by
    have h : Sieve.insert s r = .ok s' := h
    unfold Sieve.insert at h
    obtain ⟨q, h1, h2⟩ := Res.bind_eq_ok.1 h
    cases h2
    exact zeroFreq_qinsert (s' := q) h1)

end Verif
