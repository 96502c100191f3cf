import Verif.Proof.LooseMains
import Verif.Proof.S3LRU
import Verif.Spec.Adapt
/-!
# S3FIFOd: invariant and contract

Helper file.
-/

namespace Verif.S3FIFOd
open Verif Verif.Spec
open _root_.Verif.Spec.Adapt (Shares oneStep adjust floorOf FitsMain)

variable {τ : Type}

/-! ### The queues of victims -/

/-- ids in a FIFO cache -/
def qids (q : FIFO.State) : List ObjId := q.base.cached.ids

theorem forget_spec {q : FIFO.State} (h : slackQ q) (r : Req) (u : Bool) :
    ∃ q', forget q r u = .ok (decide (r.id ∈ qids q), q') ∧ slackQ q' ∧ q'.base.cached.Perm (q.base.cached.filter (fun x => x.1 ≠ r.id)) ∧
      q'.base.cacheSize = q.base.cacheSize := by
  have key : ∃ q1, FIFO.algo.find q r u = .ok (decide (r.id ∈ qids q), q1) ∧ slackQ q1 ∧ q1.base.cached.Perm q.base.cached ∧
      q1.base.cacheSize = q.base.cacheSize := by
    cases u with
    | true => exact loose_fifo.findT r h
    | false => exact ⟨q, loose_fifo.findF r h, h, List.Perm.refl _, rfl⟩
  obtain ⟨q1, h1, h2, h3, h4⟩ := key
  have h1' : Except.ok ((q.findFIFO r u).1.isSome, (q.findFIFO r u).2) = (Except.ok (decide (r.id ∈ qids q), q1) : Res (Bool × FIFO.State)) := h1
  injection h1' with e
  injection e with e1 e2
  have hids : r.id ∈ qids q1 ↔ r.id ∈ qids q := (h3.map Prod.fst).mem_iff
  unfold forget
  rcases hf : q.findFIFO r u with ⟨o, q2⟩
  rw [hf] at e1 e2
  simp only at e1 e2
  subst e2
  cases o with
  | none =>
    have hn : r.id ∉ qids q := by simpa using e1
    refine ⟨q2, by simp [decide_eq_false hn], h2, ?_, h4⟩
    rw [filter_ids_eq hn]
    exact h3
  | some o =>
    have hin : r.id ∈ qids q := by simpa using e1
    obtain ⟨q', k1, k2, k3, k4⟩ := loose_fifo.remove r.id h2
    have k1' : q2.remove r.id = .ok (decide (r.id ∈ qids q2), q') := k1
    refine ⟨q', by simp only [k1', Res.bind_ok, decide_eq_true hin], k2, k3.trans (h3.filter _), ?_⟩
    exact (show q'.base.cacheSize = q2.base.cacheSize from k4).trans h4

/-! ### The sizes -/

structure Cfg where
  cs : Nat
  fs : Nat
  thr : Int
  stale : List (Option Int)
  le : fs ≤ cs

/-- what is known about the three sizes -/
structure Sizes (c : Cfg) (f : Nat) (g : Int) (m : Nat) : Prop where
  sum : f + m = c.cs
  ghost : g = c.cs + f - 2 * c.fs
  lowM : min (c.cs - c.fs) (floorOf c.cs) ≤ m
  lowF : min c.fs (floorOf c.cs) ≤ f

theorem stepOf_le {f m : Nat} (hm : 0 < m) : stepOf f m ≤ m := by
  unfold stepOf
  have : min f m / 1000 ≤ m := Nat.le_trans (Nat.div_le_self _ _) (Nat.min_le_right _ _)
  omega

theorem stepOf_comm (f m : Nat) : stepOf f m = stepOf m f := by unfold stepOf; rw [Nat.min_comm]

theorem sub_step {k f m : Nat} (hm : m > k) : k - k / 1000 ≤ m - stepOf f m := by
  unfold stepOf
  have : min f m / 1000 ≤ m / 1000 := Nat.div_le_div_right (Nat.min_le_right _ _)
  omega

theorem oneStep_eq (x : Shares) : oneStep x = stepOf x.small x.main := by
  unfold oneStep stepOf
  split <;> omega

theorem sizes_eq (cs f : Nat) (g : Int) (m a b : Nat) :
    sizes cs f g m a b = ((adjust cs a b ⟨f, g, m⟩).small, (adjust cs a b ⟨f, g, m⟩).ghost, (adjust cs a b ⟨f, g, m⟩).main) := by
  unfold sizes adjust
  simp only [oneStep_eq]
  by_cases h1 : a > b * 2
  · have h1' : a > 2 * b := by omega
    have h2 : ¬ b > 2 * a := by omega
    simp only [if_pos h1]
    by_cases h3 : m > cs / 100
    · simp only [if_pos h3, if_pos (And.intro h1' h3)]
    · simp only [if_neg h3, if_neg (fun h : a > 2 * b ∧ m > cs / 100 => h3 h.2), if_neg (fun h : b > 2 * a ∧ f > cs / 100 => h2 h.1)]
  · have h1' : ¬ a > 2 * b := by omega
    simp only [if_neg h1, if_neg (fun h : a > 2 * b ∧ m > cs / 100 => h1' h.1)]
    by_cases h2 : b > a * 2
    · have h2' : b > 2 * a := by omega
      simp only [if_pos h2]
      by_cases h3 : f > cs / 100
      · simp only [if_pos h3, if_pos (And.intro h2' h3)]
      · simp only [if_neg h3, if_neg (fun h : b > 2 * a ∧ f > cs / 100 => h3 h.2)]
    · have h2' : ¬ b > 2 * a := by omega
      simp only [if_neg h2, if_neg (fun h : b > 2 * a ∧ f > cs / 100 => h2' h.1)]

theorem Sizes.adapt {c : Cfg} {f m : Nat} {g : Int} (h : Sizes c f g m) (a b : Nat) :
    Sizes c (sizes c.cs f g m a b).1 (sizes c.cs f g m a b).2.1 (sizes c.cs f g m a b).2.2 := by
  have hs := h.sum
  have hg := h.ghost
  have hlm := h.lowM
  have hlf := h.lowF
  unfold sizes
  split
  · split
    · rename_i hm
      have h1 : stepOf f m ≤ m := stepOf_le (by omega)
      have h2 := sub_step (f := f) hm
      refine ⟨by simp only; omega, by simp only; rw [hg]; push_cast; omega, ?_, by simp only; omega⟩
      simp only
      exact Nat.le_trans (Nat.min_le_right _ _) h2
    · exact h
  · split
    · split
      · rename_i hf
        have h1 : stepOf f m ≤ f := by rw [stepOf_comm]; exact stepOf_le (by omega)
        have h2 := sub_step (f := m) hf
        rw [stepOf_comm] at h2
        refine ⟨by simp only; omega, by simp only; rw [hg]; push_cast [h1]; omega, by simp only; omega, ?_⟩
        simp only
        exact Nat.le_trans (Nat.min_le_right _ _) h2
      · exact h
    · exact h

/-! ### The invariant -/

/-- the queues of victims -/
structure Queues (c : Cfg) (s : State τ) : Prop where
  ghost : slackQ s.ghost
  ghostSz : s.ghost.base.cacheSize = s.ghostSize.toNat
  fev : slackQ s.fifoEv
  fevSz : s.fifoEv.base.cacheSize = c.cs / 10
  mev : slackQ s.mainEv
  mevSz : s.mainEv.base.cacheSize = c.cs / 10

def cached (mc : τ → Contents) (s : State τ) : Contents := cont s.fifo.objs ++ mc s.main

variable (P : Part τ) (mc : τ → Contents) (MI : τ → Prop)

structure Inv (c : Cfg) (p : Perms) (s : State τ) : Prop where
  csz : s.cacheSize = c.cs
  fifo : Rep s.fifo.base.cacheSize 0 s.fifo s.fifo.objs
  main : MI s.main
  dis : ∀ i ∈ s.fifo.objs.map (·.id), i ∉ (mc s.main).ids
  cap : charge 0 (cached mc s) ≤ c.cs
  sizes : Sizes c s.fifo.base.cacheSize s.ghostSize (P.algo.cacheSize s.main)
  queues : Queues c s
  thr : s.threshold = c.thr
  strict : s.strict = false
  stale : c.stale = [] → s.stale = []
  sep : p.ins = false → ∀ i ∈ qids s.ghost, i ∉ (cached mc s).ids
  pos : p.ev = true → ∀ x ∈ cached mc s, 0 < x.2

variable {P mc MI}
variable {c : Cfg} {p : Perms} {s : State τ}

theorem inv_mk {s' : State τ} {lf : List (Obj Unit)} (hcs : s'.cacheSize = c.cs) (hf : Rep s'.fifo.base.cacheSize 0 s'.fifo lf) (hm : MI s'.main)
    (hd : ∀ i ∈ lf.map (·.id), i ∉ (mc s'.main).ids) (hcap : charge 0 (cont lf ++ mc s'.main) ≤ c.cs)
    (hsz : Sizes c s'.fifo.base.cacheSize s'.ghostSize (P.algo.cacheSize s'.main)) (hq : Queues c s') (ht : s'.threshold = c.thr) (hst : s'.strict = false)
    (hsl : c.stale = [] → s'.stale = []) (hsep : p.ins = false → ∀ i ∈ qids s'.ghost, i ∉ Contents.ids (cont lf ++ mc s'.main))
    (hpos : p.ev = true → ∀ x ∈ cont lf ++ mc s'.main, 0 < x.2) : Inv P mc MI c p s' := by
  have e := hf.objs
  exact ⟨hcs, by rw [e]; exact hf, hm, by rw [e]; exact hd, by unfold cached; rw [e]; exact hcap, hsz, hq, ht, hst, hsl, by unfold cached; rw [e]; exact hsep,
    by unfold cached; rw [e]; exact hpos⟩

theorem mem_cached (s : State τ) (i : ObjId) : i ∈ (cached mc s).ids ↔ i ∈ s.fifo.objs.map (·.id) ∨ i ∈ (mc s.main).ids := by
  rw [cached, Contents.ids, List.map_append, List.mem_append, ← cont_ids]

theorem Inv.nodup (L : Loose P mc MI) (h : Inv P mc MI c p s) : (cached mc s).ids.Nodup := by
  rw [cached, Contents.ids, List.map_append, List.nodup_append]
  have e : (cont s.fifo.objs).map Prod.fst = s.fifo.objs.map (·.id) := cont_ids _
  refine ⟨by rw [e]; exact h.fifo.nodup, L.nodup h.main, fun a ha b hb hab => ?_⟩
  rw [e] at ha
  exact h.dis a ha (by rw [hab]; exact hb)

theorem Inv.occ (L : Loose P mc MI) (h : Inv P mc MI c p s) : (algo P).occ s = (charge 0 (cached mc s) : Nat) := by
  show s.fifo.base.occ + P.algo.occ s.main = _
  rw [h.fifo.occ, L.occ h.main, cached, charge_append]; push_cast; rfl

theorem mustEvict_iff (L : Loose P mc MI) (h : Inv P mc MI c p s) (r : Req) :
    (algo P).mustEvict s r = true ↔ charge 0 (cached mc s) + r.size > c.cs := by
  have ho := h.occ L
  have hcs : (algo P).cacheSize s = c.cs := h.csz
  have hmd : (algo P).md s = 0 := rfl
  simp only [Algo.mustEvict, decide_eq_true_eq, ho, hcs, hmd]
  omega

def measure (mc : τ → Contents) (s : State τ) : Nat := 2 * s.fifo.objs.length + (mc s.main).length

theorem queues_frame {s' : State τ} (h : Queues c s) (hg : slackQ s'.ghost ∧ s'.ghost.base.cacheSize = s'.ghostSize.toNat)
    (h1 : slackQ s'.fifoEv ∧ s'.fifoEv.base.cacheSize = s.fifoEv.base.cacheSize) (h2 : slackQ s'.mainEv ∧ s'.mainEv.base.cacheSize = s.mainEv.base.cacheSize) :
    Queues c s' := ⟨hg.1, hg.2, h1.1, h1.2.trans h.fevSz, h2.1, h2.2.trans h.mevSz⟩

/-! ### Evicting from the main cache -/

theorem evictMain_spec (L : Loose P mc MI) (h : Inv P mc MI c p s) (hne : mc s.main ≠ []) (r : Req) :
    ∃ s' v, evictMain P s r = .ok s' ∧ Inv P mc MI c p s' ∧ s'.fifo = s.fifo ∧ s'.ghost = s.ghost ∧ s'.ghostSize = s.ghostSize ∧
      s'.hitOnGhost = s.hitOnGhost ∧ s'.fifoEv = s.fifoEv ∧ s'.fifoHit = s.fifoHit ∧ s'.mainHit = s.mainHit ∧ s'.stale = s.stale ∧
      P.algo.cacheSize s'.main = P.algo.cacheSize s.main ∧
      P.victim s.main = some v ∧ (mc s.main).Perm ((v.id, v.size) :: mc s'.main) ∧ (v.size ≤ c.cs / 10 → v.id ∈ qids s'.mainEv) ∧
      (∀ i ∈ qids s'.mainEv, i = v.id ∨ i ∈ qids s.mainEv) := by
  obtain ⟨m', v, h1, h2, h3, h4, h5⟩ := L.evict r h.main hne
  obtain ⟨b, e', k1, k2, k3, k4, k5⟩ := loose_fifo.get h.queues.mev v
  have k3' : e'.base.cacheSize = s.mainEv.base.cacheSize := k3
  have hsub : ∀ x ∈ mc m', x ∈ mc s.main := fun x hx => h4.symm.subset (List.mem_cons_of_mem _ hx)
  have k1' : FIFO.algo.get s.mainEv v = .ok (b, e') := k1
  refine ⟨{ s with mainEv := e', main := m' }, v, by simp [evictMain, h1, k1', h2], ?_, rfl, rfl, rfl, rfl, rfl, rfl, rfl, rfl, h5, h1, h4, ?_, ?_⟩
  · refine inv_mk h.csz h.fifo h3 ?_ ?_ ?_ ?_ h.thr h.strict h.stale ?_ ?_
    · intro i hi hx
      obtain ⟨x, hy, hxe⟩ := List.mem_map.1 hx; subst hxe; replace hx := hy
      exact h.dis _ hi (List.mem_map.2 ⟨x, hsub x hx, rfl⟩)
    · have := h.cap
      have e := charge_perm (md := 0) h4
      rw [cached, charge_append] at this
      rw [charge_append]
      simp only [charge] at e ⊢
      omega
    · simp only [h5]; exact h.sizes
    · exact queues_frame h.queues ⟨h.queues.ghost, h.queues.ghostSz⟩ ⟨h.queues.fev, rfl⟩ ⟨k2, k3'⟩
    · intro hp i hi hx
      refine h.sep hp i hi ?_
      obtain ⟨x, hy, hxe⟩ := List.mem_map.1 hx; subst hxe; replace hx := hy
      refine List.mem_map.2 ⟨x, ?_, rfl⟩
      rcases List.mem_append.1 hx with hx | hx
      · exact List.mem_append_left _ hx
      · exact List.mem_append_right _ (hsub x hx)
    · intro hp x hx
      refine h.pos hp x ?_
      rcases List.mem_append.1 hx with hx | hx
      · exact List.mem_append_left _ hx
      · exact List.mem_append_right _ (hsub x hx)
  · intro hle
    exact k5 (by show v.size ≤ s.mainEv.base.cacheSize; rw [h.queues.mevSz]; exact hle)
  · intro i hi
    obtain ⟨x, hx, rfl⟩ := List.mem_map.1 hi
    rcases k4 x hx with rfl | hx
    · exact Or.inl rfl
    · exact Or.inr (List.mem_map.2 ⟨x, hx, rfl⟩)

theorem shrinkMain_spec (L : Loose P mc MI) (r : Req) : ∀ n (s : State τ), Inv P mc MI c p s → (mc s.main).length ≤ n →
    ∃ s' vs, shrinkMain P r n s = .ok s' ∧ Inv P mc MI c p s' ∧ s'.fifo = s.fifo ∧ s'.ghost = s.ghost ∧ s'.ghostSize = s.ghostSize ∧
      s'.hitOnGhost = s.hitOnGhost ∧ s'.fifoEv = s.fifoEv ∧ s'.fifoHit = s.fifoHit ∧ s'.mainHit = s.mainHit ∧ s'.stale = s.stale ∧
      P.algo.cacheSize s'.main = P.algo.cacheSize s.main ∧ (mc s.main).Perm (vs ++ mc s'.main) ∧
      charge 0 (mc s'.main) ≤ P.algo.cacheSize s.main ∧ ∀ us v, vs = us ++ [v] → charge 0 (v :: mc s'.main) > P.algo.cacheSize s.main := by
  intro n
  induction n with
  | zero =>
    intro s h hl
    have hnil : mc s.main = [] := List.length_eq_zero_iff.1 (by omega)
    have ho := L.occ h.main
    rw [hnil] at ho
    refine ⟨s, [], ?_, h, rfl, rfl, rfl, rfl, rfl, rfl, rfl, rfl, rfl, by simp, by rw [hnil]; simp [charge], by simp⟩
    unfold shrinkMain
    rw [if_neg]
    rw [ho]; simp [charge]
  | succ n ih =>
    intro s h hl
    have ho := L.occ h.main
    by_cases hgt : charge 0 (mc s.main) > P.algo.cacheSize s.main
    · have hne : mc s.main ≠ [] := by intro e; rw [e] at hgt; simp [charge] at hgt
      obtain ⟨s1, v, h1, h2, h3, h4, h5, h6, h7, h8, h9, h10, h11, h12, h13, _⟩ := evictMain_spec L h hne r
      have hlen := h13.length_eq
      rw [List.length_cons] at hlen
      obtain ⟨s', vs, k1, k2, k3, k4, k5, k6, k7, k8, k9, k10, k11, k12, k13, k14⟩ := ih s1 h2 (by omega)
      refine ⟨s', (v.id, v.size) :: vs, ?_, k2, k3.trans h3, k4.trans h4, k5.trans h5, k6.trans h6, k7.trans h7, k8.trans h8, k9.trans h9, k10.trans h10,
        k11.trans h11, h13.trans (k12.cons _), by rw [← h11]; exact k13, ?_⟩
      · unfold shrinkMain
        rw [if_pos (by rw [ho]; exact_mod_cast hgt), h1, Res.bind_ok, k1]
      · intro us w e
        rcases List.eq_nil_or_concat vs with rfl | ⟨ws, x, rfl⟩
        · cases us with
          | nil =>
            cases e
            have e1 := charge_perm (md := 0) h13
            have e2 := charge_perm (md := 0) k12
            rw [List.nil_append] at e2
            simp only [charge] at e1 ⊢
            omega
          | cons a us => simp at e
        · rw [List.concat_eq_append] at e k14
          rw [← List.cons_append] at e
          obtain ⟨_, e2⟩ := List.append_inj' e rfl
          cases e2
          have := k14 ws w rfl
          rw [h11] at this
          exact this
    · refine ⟨s, [], ?_, h, rfl, rfl, rfl, rfl, rfl, rfl, rfl, rfl, rfl, by simp, by omega, by simp⟩
      unfold shrinkMain
      rw [if_neg (by rw [ho]; exact_mod_cast hgt)]

/-! ### `evict` -/

theorem ghostGet_spec (h : Inv P mc MI c p s) (r : Req) :
    ∃ g', ghostGet s r = .ok g' ∧ slackQ g' ∧ g'.base.cacheSize = s.ghost.base.cacheSize ∧ (∀ i ∈ qids g', i = r.id ∨ i ∈ qids s.ghost) ∧
      ((r.size : Int) ≤ s.ghostSize → r.id ∈ qids g') := by
  unfold ghostGet
  split
  · rename_i hneg
    obtain ⟨b1, b2, b3⟩ := loose_fifo.bump h.queues.ghost
    obtain ⟨g', k1, k2, k3, k4⟩ := loose_fifo.findT r b1
    have k1' : FIFO.algo.find (FIFO.algo.bump s.ghost) r true = .ok (_, g') := k1
    refine ⟨g', by rw [k1', Res.bind_ok], k2, ?_, ?_, ?_⟩
    · exact (show g'.base.cacheSize = (FIFO.algo.bump s.ghost).base.cacheSize from k4)
    · intro i hi
      exact Or.inr ((k3.map Prod.fst).subset hi)
    · intro hle; omega
  · rename_i hneg
    obtain ⟨b, g', k1, k2, k3, k4, k5⟩ := loose_fifo.get h.queues.ghost r
    have k1' : FIFO.algo.get s.ghost r = .ok (b, g') := k1
    refine ⟨g', by rw [k1', Res.bind_ok], k2, k3, ?_, ?_⟩
    · intro i hi
      obtain ⟨x, hx, rfl⟩ := List.mem_map.1 hi
      rcases k4 x hx with rfl | hx
      · exact Or.inl rfl
      · exact Or.inr (List.mem_map.2 ⟨x, hx, rfl⟩)
    · intro hle
      refine k5 ?_
      show r.size ≤ s.ghost.base.cacheSize
      rw [h.queues.ghostSz]
      omega

/-- What `evict` does. -/
theorem evict_spec (L : Loose P mc MI) (h : Inv P mc MI c p s) (hpos : 0 < charge 0 (cached mc s)) (r : Req) :
    ∃ s' vs, evict P s r = .ok s' ∧ Inv P mc MI c p s' ∧ (cached mc s).Perm (vs ++ cached mc s') ∧ measure mc s' < measure mc s ∧
      (s'.hitOnGhost = s.hitOnGhost ∧ s'.fifoHit = s.fifoHit ∧ s'.mainHit = s.mainHit) ∧ s'.ghostSize = s.ghostSize ∧ s'.fifo.base.cacheSize = s.fifo.base.cacheSize ∧
      P.algo.cacheSize s'.main = P.algo.cacheSize s.main ∧ (∀ i ∈ qids s'.ghost, i ∈ qids s.ghost ∨ i ∈ (cached mc s).ids) ∧
      (∀ o ∈ s'.fifo.objs, o ∈ s.fifo.objs) ∧
      (charge 0 (cont s.fifo.objs) = 0 → s'.fifo = s.fifo ∧ s'.ghost = s.ghost ∧
        ∃ v, P.victim s.main = some v ∧ (mc s.main).Perm ((v.id, v.size) :: mc s'.main) ∧ (v.size ≤ c.cs / 10 → v.id ∈ qids s'.mainEv)) ∧
      (charge 0 (cont s.fifo.objs) ≠ 0 → ∃ o, s.fifo.objs = s'.fifo.objs ++ [o] ∧
        (c.thr ≤ staleRead s o → s'.ghost = s.ghost ∧ (vs ++ mc s'.main).Perm ((o.id, o.size) :: mc s.main) ∧
          charge 0 (mc s'.main) ≤ P.algo.cacheSize s.main ∧ ∀ us v, vs = us ++ [v] → charge 0 (v :: mc s'.main) > P.algo.cacheSize s.main) ∧
        (staleRead s o < c.thr → vs = [(o.id, o.size)] ∧ s'.main = s.main ∧ ((o.size : Int) ≤ s.ghostSize → o.id ∈ qids s'.ghost) ∧
          (o.size ≤ c.cs / 10 → o.id ∈ qids s'.fifoEv))) := by
  have hch : charge 0 (cached mc s) = charge 0 (cont s.fifo.objs) + charge 0 (mc s.main) := by rw [cached, charge_append]
  have hocc := h.fifo.occ
  by_cases hz : charge 0 (cont s.fifo.objs) = 0
  · have hne : mc s.main ≠ [] := by intro e; rw [e] at hch; simp only [charge] at hch; omega
    obtain ⟨s', v, h1, h2, h3, h4, h5, h6, _, h8, h9, _, h11, h12, h13, h14, _⟩ := evictMain_spec L h hne r
    refine ⟨s', [(v.id, v.size)], ?_, h2, ?_, ?_, ⟨h6, h8, h9⟩, h5, by rw [h3], h11, ?_, by rw [h3]; exact fun o ho => ho, fun _ => ⟨h3, h4, v, h12, h13, h14⟩, fun hx => absurd hz hx⟩
    · unfold evict
      rw [if_pos (by rw [hocc, hz]; rfl), if_pos (by rw [L.occ h.main, h.csz]; have := h.cap; rw [hch] at this; omega), h1]
    · unfold cached
      rw [h3]
      refine (h13.append_left _).trans ?_
      exact List.perm_middle
    · unfold measure
      rw [h3]
      have := h13.length_eq
      rw [List.length_cons] at this
      omega
    · rw [h4]; exact fun i hi => Or.inl hi
  · obtain ⟨l', o, e⟩ := exists_last_of_charge (by omega : 0 < charge 0 (cont s.fifo.objs))
    have ht := h.fifo.tailObj e
    have hom : o ∈ s.fifo.objs := by rw [e]; simp
    have hoi : o.id ∈ s.fifo.objs.map (·.id) := List.mem_map.2 ⟨o, hom, rfl⟩
    obtain ⟨f', k1, k2⟩ := h.fifo.remove_hit hoi
    have hdel : delL o.id s.fifo.objs = l' := by
      have hn := h.fifo.nodup
      rw [e] at hn ⊢
      exact delL_last hn
    rw [hdel] at k2
    have hra : removeAsserted s.fifo o.id = .ok f' := by simp [removeAsserted, k1]
    have hsmall : o.size < u32 := by have := h.fifo.small o hom; omega
    have hol' : o.id ∉ l'.map (·.id) := by
      have hn := h.fifo.nodup
      rw [e, List.map_append, List.nodup_append] at hn
      exact fun hx => hn.2.2 o.id hx o.id (by simp) rfl
    have hom' : o.id ∉ (mc s.main).ids := h.dis _ hoi
    have hoc : o.id ∈ (cached mc s).ids := (mem_cached s _).2 (Or.inl hoi)
    have hocc0 : ¬ s.fifo.base.occ = 0 := by rw [hocc]; omega
    have hst : ¬ s.strict = true := by rw [h.strict]; simp
    have k2' : Rep f'.base.cacheSize 0 f' l' := by rw [k2.csz]; exact k2
    have hco : cont s.fifo.objs = cont l' ++ [(o.id, o.size)] := by rw [e]; simp
    have hposo : p.ev = true → 0 < o.size := fun hp => h.pos hp (o.id, o.size) (by rw [cached, hco]; simp)
    have hcap := h.cap
    rw [hch, hco, charge_append] at hcap
    simp only [charge] at hcap
    by_cases hthr : c.thr ≤ staleRead s o
    · -- the object moves to the main cache
      obtain ⟨m1, m2, m3, m4, m5, m6⟩ := L.insert o.toReq h.main hom'
      have m4' : (mc m1).Perm ((o.id, o.size) :: mc s.main) := by
        have e2 : o.toReq.size % u32 = o.size := Nat.mod_eq_of_lt hsmall
        have := m4
        rw [e2] at this
        exact this
      have hem : charge 0 (mc m1) = o.size + charge 0 (mc s.main) := by
        have := charge_perm (md := 0) m4'
        simpa [charge] using this
      have hmem1 : ∀ x ∈ mc m1, x = (o.id, o.size) ∨ x ∈ mc s.main := fun x hx => List.mem_cons.1 (m4'.subset hx)
      have hcsub : ∀ x ∈ cont l' ++ mc m1, x ∈ cached mc s := by
        intro x hx
        rw [cached, hco]
        rcases List.mem_append.1 hx with hx | hx
        · simp [hx]
        · rcases hmem1 x hx with rfl | hx
          · simp
          · simp [hx]
      have hi1 : Inv P mc MI c p { s with fifo := f', main := m1, stale := s.stale.tail } := by
        refine inv_mk h.csz k2' m3 ?_ ?_ ?_ ?_ h.thr h.strict ?_ ?_ ?_
        · intro i hi hx
          obtain ⟨x, hy, hxe⟩ := List.mem_map.1 hx; subst hxe; replace hx := hy
          rcases hmem1 x hx with rfl | hx
          · exact hol' hi
          · refine h.dis x.1 ?_ (List.mem_map.2 ⟨x, hx, rfl⟩)
            rw [e, List.map_append]
            exact List.mem_append_left _ hi
        · rw [charge_append]
          simp only
          omega
        · simp only [m6, k2.csz]
          exact h.sizes
        · exact ⟨h.queues.ghost, h.queues.ghostSz, h.queues.fev, h.queues.fevSz, h.queues.mev, h.queues.mevSz⟩
        · intro hc; simp only [h.stale hc, List.tail_nil]
        · intro hp i hi hx
          obtain ⟨x, hy, hxe⟩ := List.mem_map.1 hx; subst hxe; replace hx := hy
          exact h.sep hp _ hi (List.mem_map.2 ⟨x, hcsub x hx, rfl⟩)
        · exact fun hp x hx => h.pos hp x (hcsub x hx)
      obtain ⟨s', vs, j1, j2, j3, j4, j5, j6, j7, j8, j9, j10, j11, j12, j13, j14⟩ := shrinkMain_spec L r (P.algo.fuel m1) _ hi1 (L.fuel m3)
      simp only [m6] at j11 j13 j14
      have ef : s'.fifo.objs = l' := by rw [j3]; exact k2.objs
      refine ⟨s', vs, ?_, j2, ?_, ?_, ⟨j6, j8, j9⟩, j5, by rw [j3]; exact k2.csz, j11, by rw [j4]; exact fun i hi => Or.inl hi, ?_, fun hx => absurd hx hz, fun _ => ⟨o, by rw [ef]; exact e, fun _ => ?_, fun hx => by omega⟩⟩
      · unfold evict
        rw [if_neg hocc0, ht, Res.bind_ok, hra, Res.bind_ok, if_neg hst, if_pos (by rw [h.thr]; exact hthr), m2, Res.bind_ok, j1]
      · unfold cached
        rw [ef, hco, List.append_assoc]
        have e1 : ([(o.id, o.size)] ++ mc s.main).Perm (vs ++ mc s'.main) := m4'.symm.trans j12
        refine (e1.append_left _).trans ?_
        rw [← List.append_assoc, ← List.append_assoc]
        exact (List.perm_append_comm).append_right _
      · unfold measure
        rw [ef, e]
        have e1 := (m4'.symm.trans j12).length_eq
        simp only [List.length_append, List.length_cons, List.length_nil] at e1 ⊢
        omega
      · rw [ef, e]; exact fun o ho => List.mem_append_left _ ho
      · exact ⟨j4, (m4'.symm.trans j12).symm, j13, j14⟩
    · -- the object leaves the cache
      obtain ⟨g', g1, g2, g3, g4, g5⟩ := ghostGet_spec h o.toReq
      obtain ⟨b, e', q1, q2, q3, q4, q5⟩ := loose_fifo.get h.queues.fev o.toReq
      have q1' : FIFO.algo.get s.fifoEv o.toReq = .ok (b, e') := q1
      have hcsub : ∀ x ∈ cont l' ++ mc s.main, x ∈ cached mc s := by
        intro x hx
        rw [cached, hco]
        rcases List.mem_append.1 hx with hx | hx
        · simp [hx]
        · simp [hx]
      have hon : o.id ∉ Contents.ids (cont l' ++ mc s.main) := by
        rw [Contents.ids, List.map_append, List.mem_append, not_or]
        exact ⟨by rw [← Contents.ids, cont_ids]; exact hol', hom'⟩
      have hi1 : Inv P mc MI c p { s with fifo := f', ghost := g', fifoEv := e', stale := s.stale.tail } := by
        refine inv_mk h.csz k2' h.main ?_ ?_ ?_ ?_ h.thr h.strict ?_ ?_ ?_
        · intro i hi
          refine h.dis i ?_
          rw [e, List.map_append]
          exact List.mem_append_left _ hi
        · rw [charge_append]
          simp only
          omega
        · simp only [k2.csz]
          exact h.sizes
        · refine queues_frame h.queues ⟨g2, g3.trans h.queues.ghostSz⟩ ⟨q2, q3⟩ ⟨h.queues.mev, rfl⟩
        · intro hc; simp only [h.stale hc, List.tail_nil]
        · intro hp i hi hx
          rcases g4 i hi with rfl | hi
          · exact hon hx
          · obtain ⟨x, hy, hxe⟩ := List.mem_map.1 hx; subst hxe; replace hx := hy
            exact h.sep hp _ hi (List.mem_map.2 ⟨x, hcsub x hx, rfl⟩)
        · exact fun hp x hx => h.pos hp x (hcsub x hx)
      have ef : f'.objs = l' := k2.objs
      refine ⟨{ s with fifo := f', ghost := g', fifoEv := e', stale := s.stale.tail }, [(o.id, o.size)], ?_, hi1, ?_, ?_, ⟨rfl, rfl, rfl⟩, rfl, k2.csz, rfl, ?_, ?_, fun hx => absurd hx hz,
        fun _ => ⟨o, by simp only [ef]; exact e, fun hx => absurd hx hthr, fun _ => ⟨rfl, rfl, g5, fun hle => ?_⟩⟩⟩
      · unfold evict
        rw [if_neg hocc0, ht, Res.bind_ok, hra, Res.bind_ok, if_neg hst, if_neg (by rw [h.thr]; exact hthr), g1, Res.bind_ok, q1', Res.bind_ok]
      · unfold cached
        simp only [ef, hco]
        rw [List.append_assoc, List.singleton_append]
        exact List.perm_middle
      · unfold measure
        simp only [ef, e, List.length_append, List.length_cons, List.length_nil]
        omega
      · intro i hi
        rcases g4 i hi with rfl | hi
        · exact Or.inr hoc
        · exact Or.inl hi
      · simp only [ef, e]; exact fun o ho => List.mem_append_left _ ho
      · exact q5 (by show o.size ≤ s.fifoEv.base.cacheSize; rw [h.queues.fevSz]; exact hle)

/-! ### The other functions -/

theorem inv_init (L : Loose P mc MI) (c : Cfg) (p : Perms) {m : τ} (hm : MI m) (hc : mc m = []) (hs : P.algo.cacheSize m = c.cs - c.fs) :
    Inv P mc MI c p (init m c.cs c.fs c.thr c.stale false) := by
  have hle := c.le
  refine inv_mk (lf := []) rfl (Rep.init _ 0 .none) hm (by simp) ?_ ?_ ?_ rfl rfl (fun h => h) ?_ ?_
  · show charge 0 (mc m) ≤ c.cs
    rw [hc]; simp [charge]
  · show Sizes c c.fs ((c.cs : Int) - c.fs) (P.algo.cacheSize m)
    rw [hs]
    exact ⟨by omega, by omega, Nat.min_le_left _ _, Nat.min_le_left _ _⟩
  · exact ⟨slackQ_init _, by show c.cs - c.fs = ((c.cs : Int) - c.fs).toNat; omega, slackQ_init _, rfl, slackQ_init _, rfl⟩
  · intro _ i hi; exact absurd hi (by simp [qids, init, FIFO.init, QState.init, Base.init, Base.cached])
  · intro _ x hx
    have : x ∈ mc m := hx
    rw [hc] at this
    simp at this

theorem Inv.resize (L : Loose P mc MI) (h : Inv P mc MI c p s) {x : Nat × Int × Nat} (hx : Sizes c x.1 x.2.1 x.2.2) :
    Inv P mc MI c p (setSizes P s x) ∧ mc (setSizes P s x).main = mc s.main := by
  obtain ⟨m1, m2, m3⟩ := L.resize x.2.2 h.main
  have hr : Rep (resizeQ s.fifo x.1).base.cacheSize 0 (resizeQ s.fifo x.1) s.fifo.objs :=
    ⟨rfl, h.fifo.mdz, h.fifo.q, h.fifo.perm, h.fifo.nodup, h.fifo.occ, h.fifo.nObj, h.fifo.small⟩
  refine ⟨inv_mk h.csz hr m1 ?_ ?_ ?_ ?_ h.thr h.strict h.stale ?_ ?_, m2⟩
  · show ∀ i ∈ _, i ∉ (mc (P.resize s.main x.2.2)).ids
    rw [m2]; exact h.dis
  · show charge 0 (cont s.fifo.objs ++ mc (P.resize s.main x.2.2)) ≤ _
    rw [m2]; exact h.cap
  · show Sizes c x.1 x.2.1 (P.algo.cacheSize (P.resize s.main x.2.2))
    rw [m3]; exact hx
  · exact ⟨(loose_fifo.resize x.2.1.toNat h.queues.ghost).1, rfl, h.queues.fev, h.queues.fevSz, h.queues.mev, h.queues.mevSz⟩
  · show _ → ∀ i ∈ qids s.ghost, i ∉ Contents.ids (cont s.fifo.objs ++ mc (P.resize s.main x.2.2))
    rw [m2]; exact h.sep
  · show _ → ∀ y ∈ cont s.fifo.objs ++ mc (P.resize s.main x.2.2), 0 < y.2
    rw [m2]; exact h.pos

/-- the sizes after `adapt` -/
def shares (P : Part τ) (s : State τ) : Shares := ⟨s.fifo.base.cacheSize, s.ghostSize, P.algo.cacheSize s.main⟩

/-- the sizes and the counters -/
def gauge (P : Part τ) (s : State τ) : Shares × Nat × Nat := (shares P s, s.fifoHit, s.mainHit)

theorem mev_empty (h : Inv P mc MI c p s) : s.mainEv.base.occ > 0 ↔ 0 < charge 0 s.mainEv.base.cached := by
  have := loose_fifo.occ h.queues.mev
  have e : s.mainEv.base.occ = (charge 0 s.mainEv.base.cached : Nat) := this
  rw [e]; omega

theorem bump_spec (L : Loose P mc MI) (h : Inv P mc MI c p s) :
    Inv P mc MI c p ((algo P).bump s) ∧ ((algo P).bump s).fifo.objs = s.fifo.objs ∧ mc ((algo P).bump s).main = mc s.main ∧
      ((algo P).bump s).ghost.base.cached = s.ghost.base.cached ∧ ((algo P).bump s).hitOnGhost = s.hitOnGhost ∧ ((algo P).bump s).fifoEv = s.fifoEv ∧
      ((algo P).bump s).mainEv = s.mainEv ∧
      shares P ((algo P).bump s) = Spec.Adapt.next c.cs (decide (0 < charge 0 s.mainEv.base.cached)) s.fifoHit s.mainHit (shares P s) ∧
      (((algo P).bump s).fifoHit, ((algo P).bump s).mainHit) = Spec.Adapt.age (decide (0 < charge 0 s.mainEv.base.cached)) s.fifoHit s.mainHit := by
  have frame : ∀ {s' : State τ} (n : Nat), Inv P mc MI c p s' → Inv P mc MI c p { s' with nReq := n } := by
    intro s' n h
    exact ⟨h.csz, h.fifo, h.main, h.dis, h.cap, h.sizes, ⟨h.queues.ghost, h.queues.ghostSz, h.queues.fev, h.queues.fevSz, h.queues.mev, h.queues.mevSz⟩,
      h.thr, h.strict, h.stale, h.sep, h.pos⟩
  have frame2 : ∀ {s' : State τ} (a b : Nat), Inv P mc MI c p s' → Inv P mc MI c p { s' with fifoHit := a, mainHit := b } := by
    intro s' a b h
    exact ⟨h.csz, h.fifo, h.main, h.dis, h.cap, h.sizes, ⟨h.queues.ghost, h.queues.ghostSz, h.queues.fev, h.queues.fevSz, h.queues.mev, h.queues.mevSz⟩,
      h.thr, h.strict, h.stale, h.sep, h.pos⟩
  have he := mev_empty h
  show Inv P mc MI c p { adapt P s with nReq := s.nReq + 1 } ∧ (adapt P s).fifo.objs = _ ∧ mc (adapt P s).main = _ ∧ (adapt P s).ghost.base.cached = _ ∧
    (adapt P s).hitOnGhost = _ ∧ (adapt P s).fifoEv = _ ∧ (adapt P s).mainEv = _ ∧ shares P (adapt P s) = _ ∧ ((adapt P s).fifoHit, (adapt P s).mainHit) = _
  by_cases h1 : s.mainEv.base.occ > 0
  · have hd : decide (0 < charge 0 s.mainEv.base.cached) = true := decide_eq_true (he.1 h1)
    rw [hd]
    by_cases h2 : s.fifoHit + s.mainHit > 100
    · have ha : adapt P s = { setSizes P s (sizes s.cacheSize s.fifo.base.cacheSize s.ghostSize (P.algo.cacheSize s.main) s.fifoHit s.mainHit) with
        fifoHit := s.fifoHit * 4 / 5, mainHit := s.mainHit * 4 / 5 } := by unfold adapt; rw [if_pos h1, if_pos h2]
      rw [ha]
      have hsz := h.sizes.adapt s.fifoHit s.mainHit
      rw [← h.csz] at hsz
      obtain ⟨r1, r2⟩ := h.resize L hsz
      refine ⟨frame (s.nReq + 1) (frame2 (s.fifoHit * 4 / 5) (s.mainHit * 4 / 5) r1), rfl, r2, rfl, rfl, rfl, rfl, ?_, by simp [Spec.Adapt.age, h2]⟩
      have e := sizes_eq s.cacheSize s.fifo.base.cacheSize s.ghostSize (P.algo.cacheSize s.main) s.fifoHit s.mainHit
      have em := (L.resize (sizes s.cacheSize s.fifo.base.cacheSize s.ghostSize (P.algo.cacheSize s.main) s.fifoHit s.mainHit).2.2 h.main).2.2
      show Shares.mk (sizes s.cacheSize s.fifo.base.cacheSize s.ghostSize (P.algo.cacheSize s.main) s.fifoHit s.mainHit).1
        (sizes s.cacheSize s.fifo.base.cacheSize s.ghostSize (P.algo.cacheSize s.main) s.fifoHit s.mainHit).2.1
        (P.algo.cacheSize (P.resize s.main (sizes s.cacheSize s.fifo.base.cacheSize s.ghostSize (P.algo.cacheSize s.main) s.fifoHit s.mainHit).2.2)) = _
      rw [em, e]
      simp [h.csz, shares, Spec.Adapt.next, h2]
    · have ha : adapt P s = s := by unfold adapt; rw [if_pos h1, if_neg h2]
      rw [ha]
      exact ⟨frame (s.nReq + 1) h, rfl, rfl, rfl, rfl, rfl, rfl, by simp [Spec.Adapt.next, h2], by simp [Spec.Adapt.age, h2]⟩
  · have hd : decide (0 < charge 0 s.mainEv.base.cached) = false := decide_eq_false (fun hx => h1 (he.2 hx))
    have ha : adapt P s = { s with fifoHit := 0, mainHit := 0 } := by unfold adapt; rw [if_neg h1]
    rw [hd, ha]
    exact ⟨frame (s.nReq + 1) (frame2 0 0 h), rfl, rfl, rfl, rfl, rfl, rfl, by simp [Spec.Adapt.next, shares], by simp [Spec.Adapt.age]⟩

theorem find_false (L : Loose P mc MI) (h : Inv P mc MI c p s) (r : Req) : find P s r false = .ok (decide (r.id ∈ (cached mc s).ids), s) := by
  have hf := h.fifo.findFIFO_false r
  have hids := mem_cached (mc := mc) s r.id
  unfold find
  rw [if_neg (by simp)]
  rcases hq : s.fifo.findFIFO r false with ⟨o, q⟩
  rw [hq] at hf
  cases o with
  | some o =>
    have : r.id ∈ s.fifo.objs.map (·.id) := by simpa using hf.1
    simp [hids.2 (Or.inl this)]
  | none =>
    have hn : r.id ∉ s.fifo.objs.map (·.id) := by
      have := hf.1
      simp only [Option.isSome_none] at this
      exact of_decide_eq_false this.symm
    simp only [L.findF r h.main, Res.bind_ok]
    congr 2
    exact decide_eq_decide.2 ⟨fun hx => hids.2 (Or.inr hx), fun hx => (hids.1 hx).resolve_left hn⟩

/-- `find` with update: a hit in the small queue -/
theorem findSmall (h : Inv P mc MI c p s) {r : Req} (hin : r.id ∈ s.fifo.objs.map (·.id)) :
    ∃ s', find P s r true = .ok (true, s') ∧ Inv P mc MI c p s' ∧ cached mc s' = cached mc s ∧ s'.fifo.objs = modL r.id (touch r) s.fifo.objs ∧
      s'.main = s.main ∧ s'.ghost = s.ghost ∧ gauge P s' = gauge P s := by
  obtain ⟨o, ho, hid, hf⟩ := h.fifo.findFIFO_hit hin
  have hrep := h.fifo.modify r.id (touch r) (fun _ => rfl) (fun _ => rfl)
  have ec : cont (modL r.id (touch r) s.fifo.objs) = cont s.fifo.objs := modL_cont r.id (touch r) (fun _ => rfl) (fun _ => rfl) _
  refine ⟨{ s with hitOnGhost := false, fifo := s.fifo.modify r.id (touch r) }, ?_, ?_, ?_, hrep.objs, rfl, rfl, rfl⟩
  · rw [find, if_pos rfl, findUpdate, hf]
  · refine inv_mk h.csz hrep h.main ?_ (by rw [ec]; exact h.cap) h.sizes ?_ h.thr h.strict h.stale (by rw [ec]; exact h.sep) (by rw [ec]; exact h.pos)
    · intro i hi
      rw [modL_ids r.id (touch r) (fun _ => rfl)] at hi
      exact h.dis i hi
    · exact ⟨h.queues.ghost, h.queues.ghostSz, h.queues.fev, h.queues.fevSz, h.queues.mev, h.queues.mevSz⟩
  · unfold cached; simp only; rw [hrep.objs, ec]

/-- `find` with update: no hit in the small queue -/
theorem findMain (L : Loose P mc MI) (h : Inv P mc MI c p s) {r : Req} (hn : r.id ∉ s.fifo.objs.map (·.id)) :
    ∃ s', find P s r true = .ok (decide (r.id ∈ (mc s.main).ids), s') ∧ Inv P mc MI c p s' ∧ s'.fifo = s.fifo ∧ (mc s'.main).Perm (mc s.main) ∧
      (qids s'.ghost).Perm ((qids s.ghost).filter (fun x => x ≠ r.id)) ∧ s'.hitOnGhost = decide (r.id ∈ qids s.ghost) ∧ shares P s' = shares P s ∧
      (qids s'.fifoEv).Perm ((qids s.fifoEv).filter (fun x => x ≠ r.id)) ∧ (qids s'.mainEv).Perm ((qids s.mainEv).filter (fun x => x ≠ r.id)) ∧
      s'.fifoHit = s.fifoHit + (if r.id ∈ qids s.fifoEv then 1 else 0) ∧ s'.mainHit = s.mainHit + (if r.id ∈ qids s.mainEv then 1 else 0) := by
  have hf := h.fifo.findFIFO_miss (u := true) hn
  obtain ⟨g', g1, g2, g3, g4⟩ := loose_fifo.remove r.id h.queues.ghost
  obtain ⟨m', m1, m2, m3, m4⟩ := L.findT r h.main
  obtain ⟨a, a1, a2, a3, a4⟩ := forget_spec h.queues.fev r false
  obtain ⟨b, b1, b2, b3, b4⟩ := forget_spec h.queues.mev r true
  have g1' : FIFO.algo.remove s.ghost r.id = .ok (decide (r.id ∈ qids s.ghost), g') := g1
  have g4' : g'.base.cacheSize = s.ghost.base.cacheSize := g4
  have ids : ∀ {q q' : FIFO.State}, q'.base.cached.Perm (q.base.cached.filter (fun x => x.1 ≠ r.id)) → (qids q').Perm ((qids q).filter (fun x => x ≠ r.id)) := by
    intro q q' hq
    have := hq.map Prod.fst
    unfold qids Contents.ids
    rw [List.filter_map]
    exact this
  have hperm : (cont s.fifo.objs ++ mc m').Perm (cached mc s) := m3.append_left _
  refine ⟨{ s with hitOnGhost := decide (r.id ∈ qids s.ghost), ghost := g', main := m', fifoEv := a, mainEv := b,
                   fifoHit := if decide (r.id ∈ qids s.fifoEv) = true then s.fifoHit + 1 else s.fifoHit,
                   mainHit := if decide (r.id ∈ qids s.mainEv) = true then s.mainHit + 1 else s.mainHit },
    by rw [find, if_pos rfl, findUpdate, hf]; simp only [g1', Res.bind_ok, m1, a1, b1], ?_, rfl, m3, ids g3, rfl, ?_, ids a3, ids b3, ?_, ?_⟩
  · refine inv_mk h.csz h.fifo m2 ?_ ?_ ?_ ?_ h.thr h.strict h.stale ?_ ?_
    · intro i hi hx
      exact h.dis i hi ((m3.map Prod.fst).subset hx)
    · rw [charge_perm hperm]; exact h.cap
    · simp only [m4]; exact h.sizes
    · exact queues_frame h.queues ⟨g2, g4'.trans h.queues.ghostSz⟩ ⟨a2, a4⟩ ⟨b2, b4⟩
    · intro hp i hi hx
      exact h.sep hp i (List.mem_of_mem_filter ((ids g3).subset hi)) ((hperm.map Prod.fst).subset hx)
    · exact fun hp x hx => h.pos hp x (hperm.subset hx)
  · simp only [shares, m4]
  · by_cases hx : r.id ∈ qids s.fifoEv <;> simp [hx]
  · by_cases hx : r.id ∈ qids s.mainEv <;> simp [hx]

/-- the sizes and the counters after looking `i` up -/
def counted (P : Part τ) (s : State τ) (i : ObjId) : Shares × Nat × Nat :=
  (shares P s, s.fifoHit + (if i ∉ s.fifo.objs.map (·.id) ∧ i ∈ qids s.fifoEv then 1 else 0),
    s.mainHit + (if i ∉ s.fifo.objs.map (·.id) ∧ i ∈ qids s.mainEv then 1 else 0))

theorem find_hit (L : Loose P mc MI) (h : Inv P mc MI c p s) {r : Req} (hin : r.id ∈ (cached mc s).ids) :
    ∃ s', find P s r true = .ok (true, s') ∧ Inv P mc MI c p s' ∧ (cached mc s').Perm (cached mc s) ∧ gauge P s' = counted P s r.id ∧
      (∀ o ∈ s'.fifo.objs, (o.id ≠ r.id ∧ o ∈ s.fifo.objs) ∨ (o.id = r.id ∧ ∃ o' ∈ s.fifo.objs, o'.id = r.id ∧ o.miscFreq = o'.miscFreq + 1)) ∧
      (s'.fifo.objs.map (·.id) = s.fifo.objs.map (·.id)) := by
  by_cases hf : r.id ∈ s.fifo.objs.map (·.id)
  · obtain ⟨s', h1, h2, h3, h4, _, _, h7⟩ := findSmall h hf
    refine ⟨s', h1, h2, by rw [h3], h7.trans (by simp [counted, gauge, hf]), ?_, by rw [h4, modL_ids r.id (touch r) (fun _ => rfl)]⟩
    intro o ho
    rw [h4] at ho
    obtain ⟨o', ho', rfl⟩ := List.mem_map.1 ho
    by_cases he : o'.id = r.id
    · right; rw [if_pos he]; exact ⟨he, o', ho', he, rfl⟩
    · left; rw [if_neg he]; exact ⟨he, ho'⟩
  · have hm := ((mem_cached s r.id).1 hin).resolve_left hf
    obtain ⟨s', h1, h2, h3, h4, _, _, h7, _, _, h10, h11⟩ := findMain L h hf
    rw [decide_eq_true hm] at h1
    refine ⟨s', h1, h2, ?_, by simp [counted, gauge, h7, h10, h11, hf], ?_, by rw [h3]⟩
    · unfold cached; rw [h3]; exact h4.append_left _
    · intro o ho
      rw [h3] at ho
      exact Or.inl ⟨fun e => hf (List.mem_map.2 ⟨o, ho, e⟩), ho⟩

theorem find_miss (L : Loose P mc MI) (h : Inv P mc MI c p s) {r : Req} (hin : r.id ∉ (cached mc s).ids) :
    ∃ s', find P s r true = .ok (false, s') ∧ Inv P mc MI c p s' ∧ s'.fifo = s.fifo ∧ (cached mc s').Perm (cached mc s) ∧ (mc s'.main).Perm (mc s.main) ∧
      r.id ∉ qids s'.ghost ∧ s'.hitOnGhost = decide (r.id ∈ qids s.ghost) ∧ gauge P s' = counted P s r.id := by
  rw [mem_cached, not_or] at hin
  obtain ⟨s', h1, h2, h3, h4, h5, h6, h7, _, _, h10, h11⟩ := findMain L h hin.1
  rw [decide_eq_false hin.2] at h1
  refine ⟨s', h1, h2, h3, by unfold cached; rw [h3]; exact h4.append_left _, h4, ?_, h6, by simp only [counted, gauge, h7, h10, h11, hin.1, not_false_eq_true, true_and]⟩
  intro hx
  have := h5.subset hx
  simp at this

theorem insert_spec (L : Loose P mc MI) (h : Inv P mc MI c p s) (r : Req) (hok : FitsMain c.cs c.fs p r) (hn : r.id ∉ (cached mc s).ids)
    (hroom : (algo P).mustEvict s r = false) (hg : p.ins = false → r.id ∉ qids s.ghost) :
    ∃ s', insert P s r = .ok s' ∧ Inv P mc MI c p s' ∧ s'.ghost = s.ghost ∧ gauge P s' = gauge P s ∧
      (cached mc s').Subperm ((r.id, r.size % u32) :: cached mc s) ∧
      ((s.hitOnGhost = true ∧ s'.fifo = s.fifo ∧ (r.id, r.size % u32) ∈ mc s'.main) ∨
       (s.hitOnGhost = false ∧ s'.main = s.main ∧ s'.fifo.objs = Obj.ofReq () r :: s.fifo.objs)) := by
  have hn' := hn
  rw [mem_cached, not_or] at hn
  have hroom' : charge 0 (cached mc s) + r.size ≤ c.cs := by
    have := (not_congr (mustEvict_iff L h r)).1 (by rw [hroom]; simp)
    omega
  have hmod : r.size % u32 ≤ r.size := Nat.mod_le _ _
  have hch : charge 0 (cached mc s) = charge 0 (cont s.fifo.objs) + charge 0 (mc s.main) := by rw [cached, charge_append]
  have hids := mem_cached (mc := mc) s
  by_cases hh : s.hitOnGhost = true
  · have hle : r.size ≤ P.algo.cacheSize s.main := by
      rcases hok.1 with ⟨h1, h2⟩ | h1
      · exact Nat.le_trans (Nat.le_min.2 ⟨h1, h2⟩) h.sizes.lowM
      · omega
    rcases L.getMiss h.main r hn.2 with ⟨hx, _⟩ | ⟨_, m', vs, kept, k1, k2, k3, k4, k5, k6, _⟩
    · exact absurd hle hx
    · have hin : r.id ∈ (mc m').ids := (k4.symm.map Prod.fst).subset (by simp)
      have hkept : ∀ x ∈ kept, x ∈ mc s.main := fun x hx => k3.symm.subset (List.mem_append_right _ hx)
      have hmem : ∀ x ∈ mc m', x = (r.id, r.size % u32) ∨ x ∈ mc s.main := fun x hx => (List.mem_cons.1 (k4.subset hx)).imp id (hkept x)
      have hcm : charge 0 (mc m') ≤ r.size + charge 0 (mc s.main) := by
        have e1 := charge_perm (md := 0) k4
        have e2 := charge_perm (md := 0) k3
        rw [charge_append] at e2
        simp only [charge] at e1
        omega
      refine ⟨{ s with hitOnGhost := false, main := m' }, ?_, ?_, rfl, by simp only [gauge, shares, k6], ?_, Or.inl ⟨hh, rfl, k4.symm.subset (by simp)⟩⟩
      · simp [insert, hh, k1, L.findF r k2, hin, k5]
      · refine inv_mk h.csz h.fifo k2 ?_ ?_ ?_ ?_ h.thr h.strict h.stale ?_ ?_
        · intro i hi hx
          obtain ⟨x, hy, hxe⟩ := List.mem_map.1 hx
          rcases hmem x hy with rfl | hy
          · exact hn.1 (by rw [show r.id = i from hxe]; exact hi)
          · exact h.dis i hi (List.mem_map.2 ⟨x, hy, hxe⟩)
        · rw [charge_append]
          simp only
          omega
        · simp only [k6]; exact h.sizes
        · exact ⟨h.queues.ghost, h.queues.ghostSz, h.queues.fev, h.queues.fevSz, h.queues.mev, h.queues.mevSz⟩
        · intro hd i hi hx
          obtain ⟨x, hy, hxe⟩ := List.mem_map.1 hx
          rcases List.mem_append.1 hy with hy | hy
          · exact h.sep hd i hi (List.mem_map.2 ⟨x, List.mem_append_left _ hy, hxe⟩)
          · rcases hmem x hy with rfl | hy
            · exact hg hd (by rw [show r.id = i from hxe]; exact hi)
            · exact h.sep hd i hi (List.mem_map.2 ⟨x, List.mem_append_right _ hy, hxe⟩)
        · intro hp x hx
          rcases List.mem_append.1 hx with hx | hx
          · exact h.pos hp x (List.mem_append_left _ hx)
          · rcases hmem x hx with rfl | hx
            · exact hok.2 hp
            · exact h.pos hp x (List.mem_append_right _ hx)
      · unfold cached
        simp only
        have e1 : (mc m').Subperm ((r.id, r.size % u32) :: mc s.main) := by
          refine k4.subperm.trans ?_
          refine (List.subperm_cons _).2 ?_
          exact (List.Sublist.subperm (List.sublist_append_right vs kept)).trans k3.symm.subperm
        have e2 : (cont s.fifo.objs ++ mc m').Subperm (cont s.fifo.objs ++ ((r.id, r.size % u32) :: mc s.main)) := (List.subperm_append_left _).2 e1
        exact e2.trans List.perm_middle.subperm
  · have hh' : s.hitOnGhost = false := by simpa using hh
    obtain ⟨f', k1, k2⟩ := h.fifo.insert () r hn.1 (sizeOk_zero r)
    have k3 := zeroFreq_qinsert k1
    have k2' : Rep f'.base.cacheSize 0 f' (Obj.ofReq () r :: s.fifo.objs) := by rw [k2.csz]; exact k2
    refine ⟨{ s with fifo := f' }, by simp [insert, hh', k1, k3], ?_, rfl, by simp only [gauge, shares, k2.csz], ?_, Or.inr ⟨hh', rfl, k2.objs⟩⟩
    · refine inv_mk h.csz k2' h.main ?_ ?_ ?_ ?_ h.thr h.strict h.stale ?_ ?_
      · intro i hi
        simp only [List.map_cons, List.mem_cons] at hi
        rcases hi with hi | hi
        · rw [show i = r.id from hi]; exact hn.2
        · exact h.dis i hi
      · rw [charge_append, cont_cons, charge]
        simp only [Obj.ofReq]
        omega
      · simp only [k2.csz]; exact h.sizes
      · exact ⟨h.queues.ghost, h.queues.ghostSz, h.queues.fev, h.queues.fevSz, h.queues.mev, h.queues.mevSz⟩
      · intro hd i hi hx
        have hx' : i ∈ ((r.id, r.size % u32) :: cached mc s).map Prod.fst := hx
        rw [List.map_cons, List.mem_cons] at hx'
        rcases hx' with hx' | hx'
        · exact hg hd (by rw [← show i = r.id from hx']; exact hi)
        · exact h.sep hd i hi hx'
      · intro hp x hx
        have hx' : x ∈ (r.id, r.size % u32) :: cached mc s := hx
        rcases List.mem_cons.1 hx' with rfl | hx'
        · exact hok.2 hp
        · exact h.pos hp x hx'
    · unfold cached
      simp only
      rw [show QState.objs f' = _ from k2.objs]
      exact List.Subperm.refl _

/-- `remove` -/
theorem remove_spec (L : Loose P mc MI) (h : Inv P mc MI c p s) (id : ObjId) :
    ∃ s', remove P s id = .ok (decide (id ∈ (cached mc s).ids ∨ id ∈ qids s.ghost), s') ∧ Inv P mc MI c p s' ∧
      (cached mc s').Subperm (cached mc s) ∧ (p.ins = false → (cached mc s').Perm ((cached mc s).filter (fun x => x.1 ≠ id))) ∧
      (∀ o ∈ s'.fifo.objs, o ∈ s.fifo.objs) ∧ shares P s' = shares P s := by
  have hids := mem_cached (mc := mc) s
  by_cases hf : id ∈ s.fifo.objs.map (·.id)
  · obtain ⟨f', k1, k2⟩ := h.fifo.remove_hit hf
    have k2' : Rep f'.base.cacheSize 0 f' (delL id s.fifo.objs) := by rw [k2.csz]; exact k2
    have ec : cont (delL id s.fifo.objs) ++ mc s.main = (cached mc s).filter (fun x => x.1 ≠ id) := by
      rw [cached, List.filter_append, delL_cont]
      congr 1
      symm
      exact filter_ids_eq (h.dis id hf)
    have hs : List.Sublist (cont (delL id s.fifo.objs) ++ mc s.main) (cached mc s) :=
      List.Sublist.append (S3FIFO.delL_sublist _ _) (List.Sublist.refl _)
    have ec' : cached mc { s with fifo := f' } = cont (delL id s.fifo.objs) ++ mc s.main := by unfold cached; simp only; rw [show QState.objs f' = _ from k2.objs]
    have hinc : id ∈ (cached mc s).ids := (hids id).2 (Or.inl hf)
    refine ⟨{ s with fifo := f' }, by simp [remove, k1, hinc], ?_, by rw [ec']; exact hs.subperm, fun _ => by rw [ec', ec], ?_, by simp only [shares, k2.csz]⟩
    · refine inv_mk h.csz k2' h.main ?_ (Nat.le_trans (charge_sublist hs) h.cap) (by simp only [k2.csz]; exact h.sizes)
        ⟨h.queues.ghost, h.queues.ghostSz, h.queues.fev, h.queues.fevSz, h.queues.mev, h.queues.mevSz⟩ h.thr h.strict h.stale ?_ (fun hp x hx => h.pos hp x (hs.subset hx))
      · intro i hi
        rw [delL_ids] at hi
        exact h.dis i (List.mem_of_mem_filter hi)
      · intro hd i hi hi'
        exact h.sep hd i hi ((List.Sublist.map _ hs).subset hi')
    · intro o ho
      simp only [show QState.objs f' = _ from k2.objs] at ho
      exact List.mem_of_mem_filter ho
  · have k1 := h.fifo.remove_miss hf
    obtain ⟨g', g1, g2, g3, g4⟩ := loose_fifo.remove id h.queues.ghost
    have g1' : FIFO.algo.remove s.ghost id = .ok (decide (id ∈ qids s.ghost), g') := g1
    have g4' : g'.base.cacheSize = s.ghost.base.cacheSize := g4
    have hgsub : ∀ i ∈ qids g', i ∈ qids s.ghost := by
      intro i hi
      obtain ⟨x, hx, rfl⟩ := List.mem_map.1 hi
      exact List.mem_map.2 ⟨x, List.mem_of_mem_filter (g3.subset hx), rfl⟩
    by_cases hgm : id ∈ qids s.ghost
    · refine ⟨{ s with ghost := g' }, by simp [remove, k1, g1', hgm], ?_, List.Subperm.refl _, ?_, fun o ho => ho, rfl⟩
      · exact inv_mk h.csz h.fifo h.main h.dis h.cap h.sizes (queues_frame h.queues ⟨g2, g4'.trans h.queues.ghostSz⟩ ⟨h.queues.fev, rfl⟩ ⟨h.queues.mev, rfl⟩)
          h.thr h.strict h.stale (fun hd i hi => h.sep hd i (hgsub i hi)) h.pos
      · intro hd
        rw [filter_ids_eq (h.sep hd id hgm)]
        exact List.Perm.refl _
    · obtain ⟨m', m1, m2, m3, m4⟩ := L.remove id h.main
      have hsub : ∀ x ∈ mc m', x ∈ mc s.main := fun x hx => List.mem_of_mem_filter (m3.subset hx)
      have hp : (cont s.fifo.objs ++ mc m').Perm ((cached mc s).filter (fun x => x.1 ≠ id)) := by
        rw [cached, List.filter_append, filter_ids_eq (by rw [cont_ids]; exact hf)]
        exact m3.append_left _
      have hs : (cont s.fifo.objs ++ mc m').Subperm (cached mc s) := hp.subperm.trans List.filter_sublist.subperm
      have hans : decide (id ∈ (mc s.main).ids) = decide (id ∈ (cached mc s).ids ∨ id ∈ qids s.ghost) :=
        decide_eq_decide.2 ⟨fun hx => Or.inl ((hids id).2 (Or.inr hx)), fun hx => ((hids id).1 (hx.resolve_right hgm)).resolve_left hf⟩
      refine ⟨{ s with ghost := g', main := m' }, ?_, ?_, hs, fun _ => hp, fun o ho => ho, by simp only [shares, m4]⟩
      · simp [remove, k1, g1', hgm, m1, ← hans]
      · refine inv_mk h.csz h.fifo m2 ?_ ?_ (by simp only [m4]; exact h.sizes)
          (queues_frame h.queues ⟨g2, g4'.trans h.queues.ghostSz⟩ ⟨h.queues.fev, rfl⟩ ⟨h.queues.mev, rfl⟩) h.thr h.strict h.stale ?_ (fun hp x hx => h.pos hp x (hs.subset hx))
        · intro i hi hx
          obtain ⟨x, hy, hxe⟩ := List.mem_map.1 hx
          exact h.dis i hi (List.mem_map.2 ⟨x, hsub x hy, hxe⟩)
        · have e1 := charge_perm (md := 0) hp
          have e2 : charge 0 ((cached mc s).filter (fun x => x.1 ≠ id)) ≤ charge 0 (cached mc s) := charge_sublist List.filter_sublist
          have := h.cap
          simp only
          omega
        · intro hd i hi hx
          obtain ⟨x, hy, hxe⟩ := List.mem_map.1 hx
          exact h.sep hd i (hgsub i hi) (List.mem_map.2 ⟨x, hs.subset hy, hxe⟩)

/-! ### The contract -/

/-- What `get` needs when it starts evicting. -/
def Ready (c : Cfg) (p : Perms) (s : State τ) (r : Req) : Prop := r.size ≤ c.cs ∧ (p.ins = false → r.id ∉ qids s.ghost)

theorem pos_of_nonempty (h : Inv P mc MI c p s) (hp : p.ev = true) (hne : cached mc s ≠ []) : 0 < charge 0 (cached mc s) := by
  obtain ⟨x, l, e⟩ := List.exists_cons_of_ne_nil hne
  have := h.pos hp x (by rw [e]; simp)
  rw [e]
  simp only [charge]
  omega

theorem sub_of_perm {vs a b : Contents} (h : a.Perm (vs ++ b)) : b.Subperm a :=
  (List.Sublist.subperm (List.sublist_append_right vs _)).trans h.symm.subperm

theorem contract (L : Loose P mc MI) (c : Cfg) (p : Perms) :
    Contract (algo P) (cached mc) (Inv P mc MI c p) (Ready c p) (measure mc) c.cs 0 p (FitsMain c.cs c.fs p) where
  csz := fun h => h.csz
  mdz := fun _ => rfl
  nodup := fun h => h.nodup L
  occ := fun h => h.occ L
  nObj := fun {s} h => by
    show s.fifo.base.nObj + P.algo.nObj s.main = _
    rw [h.fifo.nObj, L.nObj h.main, cached, List.length_append, cont_length]; push_cast; rfl
  cap := fun h => by rw [h.occ L]; have := h.cap; omega
  bump := fun {s} h => by
    obtain ⟨b1, b2, b3, _⟩ := bump_spec L h
    exact ⟨b1, by unfold cached; rw [b2, b3]⟩
  findF := fun _ _ r h => find_false L h r
  findHit := fun {s} r h hin _ => by
    obtain ⟨s', h1, h2, h3, _⟩ := find_hit L h hin
    exact ⟨s', h1, h2, h3.subperm⟩
  findMiss := fun {s} r h hin _ => by
    obtain ⟨s', h1, h2, h3, h4, _, h5, _⟩ := find_miss L h hin
    refine ⟨s', h1, h2, h4, h2, h4, ?_⟩
    intro hc _
    have hc' : decide (r.size ≤ s'.fifo.base.cacheSize) = true := hc
    have := h2.sizes.sum
    exact ⟨by have := of_decide_eq_true hc'; omega, fun _ => h5⟩
  fuel := fun {s} h => by
    show measure mc s ≤ 2 * s.fifo.base.tbl.length + (P.algo.nObj s.main).toNat
    rw [measure, h.fifo.perm.length_eq, L.nObj h.main]
    simp
  evictLoop := fun {s} r h _ hr hn hme => by
    have hpos : 0 < charge 0 (cached mc s) := by
      rw [mustEvict_iff L h] at hme
      have := hr.1
      omega
    obtain ⟨s', vs, k1, k2, k3, k4, k5, _, _, _, k9, _⟩ := evict_spec L h hpos r
    refine ⟨s', k1, k2, ⟨hr.1, fun hd hx => ?_⟩, sub_of_perm k3, k4⟩
    rcases k9 _ hx with hx | hx
    · exact hr.2 hd hx
    · exact hn hx
  insert := fun {s} r h hok hr hn hme => by
    obtain ⟨s', k1, k2, _, _, k5, _⟩ := insert_spec L h r hok hn hme hr.2
    exact ⟨s', k1, k2, k5⟩
  userInsert := fun hpi {s} r h hok hn hme => by
    obtain ⟨s', k1, k2, _, _, k5, _⟩ := insert_spec L h r hok hn hme (fun hd => by rw [hpi] at hd; simp at hd)
    exact ⟨s', k1, k2, k5⟩
  remove := fun _ {s} id h => by
    obtain ⟨s', k1, k2, k3, _⟩ := remove_spec L h id
    exact ⟨_, s', k1, k2, k3⟩
  evict := fun he {s} r h hne => by
    obtain ⟨s', vs, k1, k2, k3, _⟩ := evict_spec L h (pos_of_nonempty h he hne) r
    exact ⟨s', k1, k2, sub_of_perm k3⟩

/-! ### Whole `get` calls -/

theorem shares_small (s : State τ) : (shares P s).small = s.fifo.base.cacheSize := rfl

/-- the small part's size as `get` sees it -/
def nextShares (P : Part τ) (c : Cfg) (s : State τ) : Shares :=
  Spec.Adapt.next c.cs (decide (0 < charge 0 s.mainEv.base.cached)) s.fifoHit s.mainHit (shares P s)

/-- the sizes and the counters after a `get` of `i` -/
def nextGauge (P : Part τ) (c : Cfg) (s : State τ) (i : ObjId) : Shares × Nat × Nat :=
  (nextShares P c s,
    (Spec.Adapt.age (decide (0 < charge 0 s.mainEv.base.cached)) s.fifoHit s.mainHit).1 + (if i ∉ s.fifo.objs.map (·.id) ∧ i ∈ qids s.fifoEv then 1 else 0),
    (Spec.Adapt.age (decide (0 < charge 0 s.mainEv.base.cached)) s.fifoHit s.mainHit).2 + (if i ∉ s.fifo.objs.map (·.id) ∧ i ∈ qids s.mainEv then 1 else 0))

theorem counted_bump (L : Loose P mc MI) (h : Inv P mc MI c p s) (i : ObjId) : counted P ((algo P).bump s) i = nextGauge P c s i := by
  obtain ⟨_, b2, _, _, _, b6, b7, b8, b9⟩ := bump_spec L h
  unfold counted nextGauge nextShares
  rw [b2, b6, b7, b8, ← b9]

theorem get_hit_spec (L : Loose P mc MI) (h : Inv P mc MI c p s) {r : Req} {s' : State τ} (hin : r.id ∈ (cached mc s).ids)
    (hg : (algo P).get s r = .ok (true, s')) :
    (cached mc s').Perm (cached mc s) ∧ gauge P s' = nextGauge P c s r.id ∧
      (∀ o ∈ s'.fifo.objs, (o.id ≠ r.id ∧ o ∈ s.fifo.objs) ∨ (o.id = r.id ∧ ∃ o' ∈ s.fifo.objs, o'.id = r.id ∧ o.miscFreq = o'.miscFreq + 1)) ∧
      s'.fifo.objs.map (·.id) = s.fifo.objs.map (·.id) := by
  obtain ⟨b1, b2, b3, _⟩ := bump_spec L h
  have bc : cached mc ((algo P).bump s) = cached mc s := by unfold cached; rw [b2, b3]
  obtain ⟨s1, h1, h2, h3, h4, h5, h6⟩ := find_hit (r := r) L b1 (by rw [bc]; exact hin)
  rw [get_hit (A := algo P) h1] at hg
  cases hg
  rw [b2] at h5 h6
  exact ⟨by rw [← bc]; exact h3, h4.trans (counted_bump L h r.id), h5, h6⟩

theorem loop_spec (L : Loose P mc MI) (r : Req) (hle : r.size ≤ c.cs) : ∀ (n : Nat) (s : State τ), Inv P mc MI c p s → measure mc s ≤ n →
    r.id ∉ (cached mc s).ids → (p.ins = false → r.id ∉ qids s.ghost) →
    ∃ s', (algo P).evictLoop r n s = .ok s' ∧ Inv P mc MI c p s' ∧ (∀ o ∈ s'.fifo.objs, o ∈ s.fifo.objs) ∧ s'.hitOnGhost = s.hitOnGhost ∧ gauge P s' = gauge P s ∧
      (algo P).mustEvict s' r = false ∧ r.id ∉ (cached mc s').ids ∧ (p.ins = false → r.id ∉ qids s'.ghost) ∧
      (charge 0 (cached mc s) + r.size ≤ c.cs → s' = s) := by
  intro n
  induction n with
  | zero =>
    intro s h hm hn hg
    cases hme : (algo P).mustEvict s r with
    | false => exact ⟨s, by simp [Algo.evictLoop, hme], h, fun o ho => ho, rfl, rfl, hme, hn, hg, fun _ => rfl⟩
    | true =>
      rw [mustEvict_iff L h] at hme
      obtain ⟨s', vs, _, _, _, k4, _⟩ := evict_spec L h (by omega) r
      omega
  | succ n ih =>
    intro s h hm hn hg
    cases hme : (algo P).mustEvict s r with
    | false => exact ⟨s, by simp [Algo.evictLoop, hme], h, fun o ho => ho, rfl, rfl, hme, hn, hg, fun _ => rfl⟩
    | true =>
      have hme' := hme
      rw [mustEvict_iff L h] at hme
      obtain ⟨s1, vs, k1, k2, k3, k4, k5, k6, k7, k8, k9, k10, _⟩ := evict_spec L h (by omega) r
      have hn1 : r.id ∉ (cached mc s1).ids := notMem_ids_of_subperm (sub_of_perm k3) hn
      obtain ⟨s', j1, j2, j3, j4, j5, j6, j7, j8, _⟩ := ih s1 k2 (by omega) hn1 (fun hd hx => (k9 _ hx).elim (hg hd) hn)
      have k1' : (algo P).evict s r = .ok s1 := k1
      refine ⟨s', by simp [Algo.evictLoop, hme', k1', j1], j2, fun o ho => k10 o (j3 o ho), j4.trans k5.1, ?_, j6, j7, j8, fun hx => by omega⟩
      rw [j5]; simp only [gauge, shares, k5.2.1, k5.2.2, k6, k7, k8]

/-- a `get` that misses -/
theorem get_miss (L : Loose P mc MI) (h : Inv P mc MI c p s) {r : Req} (hok : FitsMain c.cs c.fs p r) (hin : r.id ∉ (cached mc s).ids) :
    ∃ s', (algo P).get s r = .ok (false, s') ∧ Inv P mc MI c p s' ∧ gauge P s' = nextGauge P c s r.id ∧
    (r.size > (nextShares P c s).small → s'.fifo.objs = s.fifo.objs ∧ (mc s'.main).Perm (mc s.main)) ∧
    (∀ o ∈ s'.fifo.objs, (o.id ≠ r.id ∧ o ∈ s.fifo.objs) ∨ (o.id = r.id ∧ o.miscFreq = 0)) ∧
    (r.size ≤ (nextShares P c s).small → r.id ∈ qids s.ghost → (r.id, r.size % u32) ∈ mc s'.main) ∧
    (r.size ≤ (nextShares P c s).small → r.id ∉ qids s.ghost → s'.fifo.objs.head? = some (Obj.ofReq () r) ∧
      (charge 0 (cached mc s) + r.size ≤ c.cs → (cached mc s').Perm ((r.id, r.size % u32) :: cached mc s))) := by
  obtain ⟨b1, b2, b3, b4, _, _, _, b8, _⟩ := bump_spec L h
  have bc : cached mc ((algo P).bump s) = cached mc s := by unfold cached; rw [b2, b3]
  have bq : qids ((algo P).bump s).ghost = qids s.ghost := by unfold qids; rw [b4]
  obtain ⟨s1, h1, h2, h3, h4, h4', h5, h6, h7⟩ := find_miss (r := r) L b1 (by rw [bc]; exact hin)
  rw [bc] at h4
  rw [bq] at h6
  rw [b3] at h4'
  have e3 : s1.fifo.objs = s.fifo.objs := by rw [h3]; exact b2
  have hga : gauge P s1 = nextGauge P c s r.id := h7.trans (counted_bump L h r.id)
  have hsh : shares P s1 = nextShares P c s := congrArg Prod.fst hga
  have hcan : (algo P).canInsert s1 r = (decide (r.size ≤ (nextShares P c s).small), s1) := by
    show (decide (r.size ≤ s1.fifo.base.cacheSize), s1) = _
    rw [← hsh]; rfl
  have hnf : ∀ o ∈ s.fifo.objs, o.id ≠ r.id := fun o ho e => hin ((mem_cached s r.id).2 (Or.inl (List.mem_map.2 ⟨o, ho, e⟩)))
  by_cases hle : r.size ≤ (nextShares P c s).small
  · rw [decide_eq_true hle] at hcan
    have hlc : r.size ≤ c.cs := by
      have e1 := h2.sizes.sum
      have e2 : (nextShares P c s).small = s1.fifo.base.cacheSize := by rw [← hsh]; rfl
      omega
    have hn1 : r.id ∉ (cached mc s1).ids := fun hx => hin ((h4.map Prod.fst).subset hx)
    obtain ⟨s2, j1, j2, j3, j4, j5, j6, j7, j8, j9⟩ := loop_spec L r hlc ((algo P).fuel s1) s1 h2 ((contract L c p).fuel h2) hn1 (fun _ => h5)
    obtain ⟨s3, k1, k2, k3, k4, k5, k6⟩ := insert_spec L j2 r hok j7 j6 j8
    have hfl : s2.hitOnGhost = decide (r.id ∈ qids s.ghost) := j4.trans h6
    refine ⟨s3, get_accept h1 hcan j1 k1, k2, k4.trans (j5.trans hga), fun hx => by omega, ?_, ?_, ?_⟩
    · intro o ho
      rcases k6 with ⟨_, e1, _⟩ | ⟨_, _, e1⟩
      · rw [e1] at ho
        have := j3 o ho
        rw [e3] at this
        exact Or.inl ⟨hnf o this, this⟩
      · rw [e1] at ho
        rcases List.mem_cons.1 ho with rfl | ho
        · exact Or.inr ⟨rfl, rfl⟩
        · have := j3 o ho
          rw [e3] at this
          exact Or.inl ⟨hnf o this, this⟩
    · intro _ hgm
      rw [decide_eq_true hgm] at hfl
      rcases k6 with ⟨_, _, e1⟩ | ⟨hh, _⟩
      · exact e1
      · rw [hfl] at hh; cases hh
    · intro _ hgm
      rw [decide_eq_false hgm] at hfl
      rcases k6 with ⟨hh, _⟩ | ⟨_, e1, e2⟩
      · rw [hfl] at hh; cases hh
      · refine ⟨by rw [e2]; rfl, fun hroom => ?_⟩
        have e4 : s2 = s1 := j9 (by rw [charge_perm h4]; exact hroom)
        unfold cached
        rw [e1, e2, e4]
        exact h4.cons _
  · rw [decide_eq_false hle] at hcan
    refine ⟨s1, get_reject h1 hcan, h2, hga, fun _ => ⟨e3, h4'⟩, fun o ho => ?_, fun hx => absurd hx hle, fun hx => absurd hx hle⟩
    rw [e3] at ho
    exact Or.inl ⟨hnf o ho, ho⟩

theorem get_answer (L : Loose P mc MI) (h : Inv P mc MI c p s) {r : Req} {s' : State τ} {b : Bool} (hok : FitsMain c.cs c.fs p r)
    (hg : (algo P).get s r = .ok (b, s')) : b = decide (r.id ∈ (cached mc s).ids) := by
  obtain ⟨s'', h1, _⟩ := (contract L c p).get r hok h
  rw [h1] at hg
  injection hg with hg
  injection hg with hg _
  exact hg.symm

/-! ### Frequencies count hits -/

/-- the hits kept with the objects of the small queue are those of the history -/
def FreqOk (s : State τ) (h : List (Op × Bool)) : Prop := ∀ o ∈ s.fifo.objs, o.miscFreq = hitsSince h o.id

theorem step_freq (L : Loose P mc MI) {s' : State τ} {b : Bool} {op : Op} {h : List (Op × Bool)} (hi : Inv P mc MI c p s)
    (hop : Calls p (FitsMain c.cs c.fs p) op) (hf : FreqOk s h) (hs : (algo P).step s op = .ok (b, s')) : FreqOk s' (h ++ [(op, b)]) := by
  have hitcase : ∀ {r : Req}, (∀ o ∈ s'.fifo.objs, (o.id ≠ r.id ∧ o ∈ s.fifo.objs) ∨ (o.id = r.id ∧ ∃ o' ∈ s.fifo.objs, o'.id = r.id ∧ o.miscFreq = o'.miscFreq + 1)) →
      ∀ o ∈ s'.fifo.objs, o.miscFreq = (if r.id = o.id then hitsSince h o.id + 1 else hitsSince h o.id : Nat) := by
    intro r hx o ho
    rcases hx o ho with ⟨hne, ho⟩ | ⟨he, o', ho', he', hm⟩
    · rw [if_neg (Ne.symm hne)]; exact hf o ho
    · rw [if_pos he.symm, hm, hf o' ho', he', he]; push_cast; rfl
  intro o ho
  rw [S3FIFO.hitsSince_append]
  cases op with
  | get r =>
    have hs' : (algo P).get s r = .ok (b, s') := hs
    have hb := get_answer L hi hop hs'
    by_cases hin : r.id ∈ (cached mc s).ids
    · rw [decide_eq_true hin] at hb
      subst hb
      have := hitcase (get_hit_spec L hi hin hs').2.2.1 o ho
      simp only [hitStep, if_true]
      exact this
    · rw [decide_eq_false hin] at hb
      subst hb
      obtain ⟨s'', g1, _, _, _, g5, _⟩ := get_miss L hi hop hin
      rw [g1] at hs'
      cases hs'
      rcases g5 o ho with ⟨hne, ho⟩ | ⟨he, hmt⟩
      · simp only [hitStep, if_neg (Ne.symm hne)]; exact hf o ho
      · simp only [hitStep, if_pos he.symm, Bool.false_eq_true, if_false]; exact hmt
  | find r u =>
    cases u with
    | false =>
      have hs' : find P s r false = .ok (b, s') := hs
      rw [find_false L hi] at hs'
      injection hs' with hs'
      injection hs' with _ hs'
      subst hs'
      exact hf o ho
    | true =>
      have hs' : find P s r true = .ok (b, s') := hs
      by_cases hin : r.id ∈ (cached mc s).ids
      · obtain ⟨s1, h1, _, _, _, h5, _⟩ := find_hit L hi hin
        rw [h1] at hs'
        cases hs'
        have := hitcase h5 o ho
        simp only [hitStep, and_true]
        exact this
      · obtain ⟨s1, h1, _, h3, _⟩ := find_miss L hi hin
        rw [h1] at hs'
        cases hs'
        rw [h3] at ho
        simp only [hitStep, Bool.false_eq_true, and_false, if_false]
        exact hf o ho
  | remove id =>
    obtain ⟨s'', k1, k2, k3, k4, k5, k6⟩ := remove_spec L hi id
    have hs' : remove P s id = .ok (b, s') := hs
    rw [k1] at hs'
    injection hs' with hs'
    injection hs' with _ hs'
    subst hs'
    exact hf o (k5 o ho)
  | evict r =>
    simp only [Algo.step] at hs
    split at hs
    · rename_i hpos
      have hne : cached mc s ≠ [] := by
        intro e
        have := (contract L c p).nObj hi
        rw [e] at this
        simp only [List.length_nil] at this
        rw [this] at hpos
        simp at hpos
      have he : p.ev = true := hop
      obtain ⟨s1, vs, k1, k2, k3, k4, k5, k6, k7, k8, k9, k10, _⟩ := evict_spec L hi (pos_of_nonempty hi he hne) r
      rw [show (algo P).evict s r = evict P s r from rfl, k1, Res.bind_ok] at hs
      cases hs
      exact hf o (k10 o ho)
    · cases hs; exact hf o ho
  | insert r =>
    simp only [Algo.step] at hs
    rw [show (algo P).find s r false = find P s r false from rfl, find_false L hi, Res.bind_ok] at hs
    simp only at hs
    split at hs
    · rename_i hc
      have hn : r.id ∉ (cached mc s).ids := by simpa using hc.1
      obtain ⟨s1, k1, k2, k3, _, _, k4⟩ := insert_spec L hi r hop.2 hn hc.2 (fun hd => by have := hop.1; rw [hd] at this; simp at this)
      rw [show (algo P).insert s r = insert P s r from rfl, k1, Res.bind_ok] at hs
      cases hs
      have hnf : ∀ o ∈ s.fifo.objs, r.id ≠ o.id := fun o ho e =>
        hn ((mem_cached s r.id).2 (Or.inl (List.mem_map.2 ⟨o, ho, e.symm⟩)))
      rcases k4 with ⟨_, e1, _⟩ | ⟨_, _, e1⟩
      · rw [e1] at ho; simp only [hitStep, if_neg (hnf o ho)]; exact hf o ho
      · rw [e1] at ho
        rcases List.mem_cons.1 ho with rfl | ho
        · simp [hitStep, Obj.ofReq]
        · simp only [hitStep, if_neg (hnf o ho)]; exact hf o ho
    · cases hs; exact hf o ho

theorem reach_freq (L : Loose P mc MI) {s0 : State τ} (h0 : Inv P mc MI c p s0) (he : s0.fifo.objs = []) : ∀ (ops : List Op) (out : List Bool) (s : State τ),
    (∀ op ∈ ops, Calls p (FitsMain c.cs c.fs p) op) → Reaches (algo P) s0 ops out s →
    FreqOk s (ops.zip out) ∧ ops.length = out.length := by
  have C := contract L c p
  intro ops
  induction ops using List.reverseRecOn with
  | nil =>
    intro out s _ h
    simp only [Reaches, Algo.run] at h
    cases h
    exact ⟨by intro o ho; rw [he] at ho; simp at ho, rfl⟩
  | append_singleton ops op ih =>
    intro out s ho h
    have ho' : ∀ o ∈ ops, Calls p (FitsMain c.cs c.fs p) o := fun o h => ho o (by simp [h])
    obtain ⟨out1, s1, hr1, hi1⟩ := C.run ops h0 ho'
    obtain ⟨hf1, hl1⟩ := ih out1 s1 ho' hr1
    unfold Reaches at h
    rw [run_append, hr1] at h
    obtain ⟨b, s2, hst, hi2, _⟩ := C.step op (ho op (by simp)) hi1
    simp only [Algo.run, hst, Res.bind_ok] at h
    cases h
    refine ⟨?_, by simp [hl1]⟩
    rw [S3FIFO.zip_append_single _ _ _ _ hl1]
    exact step_freq L hi1 (ho op (by simp)) hf1 hst

end Verif.S3FIFOd
