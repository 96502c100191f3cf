import Verif.Proof.LPARC
/-!
# LP_ARC: the cache contract, and whole runs
-/

namespace Verif.LPARC
open Verif Verif.Spec Verif.Spec.LazyARC
open Verif.ARC (Arith)
variable {R : Arith}

def Ready (s : State R) (r : Req) : Prop := r.id ∉ (all (view s)).ids

def measure (s : State R) : Nat := (LPARC.cached s).length

section
variable {cs : Nat} {sz : ObjId → Nat} {s : State R} {t t' : St R.P}

theorem not_filter (l : Contents) (id : ObjId) : id ∉ Contents.ids (l.filter (fun x => x.1 ≠ id)) := by
  intro h
  obtain ⟨x, hx, rfl⟩ := List.mem_map.1 h
  simpa using (List.mem_filter.1 hx).2

theorem Rep.total (h : Rep cs sz s t) : charge 0 (LPARC.cached s) = charge 0 (ent t.t1) + charge 0 (ent t.t2) := by
  rw [← charge_perm h.cached, contents, charge_app]

theorem Rep.nodup (h : Rep cs sz s t) : (LPARC.cached s).ids.Nodup := by
  refine (h.cached.map Prod.fst).nodup_iff.1 ?_
  have := h.good.nodup
  rw [all, ← List.append_assoc, ids_append, List.nodup_append] at this
  exact this.1

theorem Rep.bump (h : Rep cs sz s t) : Rep cs sz ((algo R).bump s) t := h.frame (s.nReq + 1) s.inB1 s.inB2 s.vtime

/-- a hit -/
theorem Rep.find_hit (h : Rep cs sz s t) (r : Req) (hok : Fits cs sz r) (hin : r.id ∈ (LPARC.cached s).ids) :
    ∃ s' t', find s r true = .ok (true, s') ∧ Rep cs sz s' t' ∧ (LPARC.cached s').Perm (LPARC.cached s) := by
  rcases (h.mem r.id).1 hin with hb | hb
  · obtain ⟨s', h1, h2, _, _, _, h3⟩ := h.find_t1 r hok hb
    exact ⟨s', _, h1, h2, h3.symm.trans h.cached⟩
  · obtain ⟨s', h1, h2, _, _, _, h3⟩ := h.find_t2 r hb
    exact ⟨s', _, h1, h2, h3.symm.trans h.cached⟩

/-- a miss -/
theorem Rep.find_miss (h : Rep cs sz s t) (r : Req) (hin : r.id ∉ (LPARC.cached s).ids) :
    ∃ s' t', find s r true = .ok (false, s') ∧ Rep cs sz s' t' ∧ (LPARC.cached s').Perm (LPARC.cached s) ∧ r.id ∉ (all t').ids := by
  rw [h.mem, not_or] at hin
  by_cases hb1 : r.id ∈ t.b1.ids
  · obtain ⟨s', h1, h2, _⟩ := h.find_b1 r hb1
    refine ⟨s', _, h1, h2, h2.cached.symm.trans h.cached, ?_⟩
    rw [mem_all]
    simp only [not_or]
    exact ⟨hin.1, hin.2, not_filter _ _, (h.good.onB1 hb1).2.2⟩
  · by_cases hb2 : r.id ∈ t.b2.ids
    · obtain ⟨s', h1, h2, _⟩ := h.find_b2 r hb2
      refine ⟨s', _, h1, h2, h2.cached.symm.trans h.cached, ?_⟩
      rw [mem_all]
      simp only [not_or]
      exact ⟨hin.1, hin.2, hb1, not_filter _ _⟩
    · have hn : r.id ∉ (all t).ids := by
        rw [mem_all]
        simp only [not_or]
        exact ⟨hin.1, hin.2, hb1, hb2⟩
      exact ⟨s, t, h.find_none r hn, h, List.Perm.refl _, hn⟩

/-- an insertion -/
theorem Rep.insert_any (h : Rep cs sz s t) (r : Req) (hok : Fits cs sz r) (hn : r.id ∉ (all t).ids) (hme : (algo R).mustEvict s r = false) :
    ∃ s' t', insert s r = .ok s' ∧ Rep cs sz s' t' ∧ (LPARC.cached s').Perm ((r.id, r.size % u32) :: LPARC.cached s) := by
  have hm : ¬ cs < _ := fun hh => by rw [(h.mustEvict_iff r).2 hh] at hme; cases hme
  rw [Nat.mod_eq_of_lt hok.2.2]
  cases ha : afterGhostHit s with
  | false =>
    obtain ⟨s', h1, h2, _⟩ := h.insert_t1 r hok hn (by omega) ha
    refine ⟨s', _, h1, h2, h2.cached.symm.trans (List.Perm.trans ?_ (h.cached.cons _))⟩
    simp only [contents, ent, List.map_append, List.map_cons, List.map_nil, List.append_assoc, List.singleton_append]
    exact List.perm_middle
  | true =>
    obtain ⟨s', h1, h2, _⟩ := h.insert_t2 r hok hn (by omega) ha
    refine ⟨s', _, h1, h2, h2.cached.symm.trans (List.Perm.trans ?_ (h.cached.cons _))⟩
    simp only [contents, ent, List.map_append, List.map_cons, List.map_nil]
    rw [← List.append_assoc]
    exact List.perm_append_singleton _ _

theorem contract {p : Perms} (hp : p.upd = false) (he : p.ev = false) (hins : p.ins = false) :
    OneByOne (algo R) cached (Inv cs sz) Ready measure cs 0 p (Fits cs sz) where
  csz := fun h => h.csz
  mdz := fun _ => rfl
  nodup := fun h => h.nodup
  occ := fun {s} h => by
    show s.t1.base.occ + s.t2.base.occ = _
    rw [h.t1.occ, h.t2.occ, h.total]; push_cast; rfl
  nObj := fun {s} h => by
    show s.t1.base.nObj + s.t2.base.nObj = _
    rw [h.t1.nObj, h.t2.nObj, ← h.cached.length_eq, contents_len]; push_cast; rfl
  cap := fun {s} h => by
    show s.t1.base.occ + s.t2.base.occ ≤ _
    rw [h.t1.occ, h.t2.occ]; have := h.good.cap; omega
  bump := fun h => ⟨h.bump, rfl⟩
  findF := fun _ _ r h => h.find_false r
  findHit := fun {s} r h hin hfr => by
    rcases hfr with hfr | ⟨hok, _⟩
    · rw [hp] at hfr; cases hfr
    · obtain ⟨s', t', h1, h2, h3⟩ := h.find_hit r hok hin
      exact ⟨s', h1, h2.inv, h3.subperm⟩
  findMiss := fun {s} r h hin _ => by
    obtain ⟨s', t', h1, h2, h3, h4⟩ := h.find_miss r hin
    refine ⟨s', h1, h2.inv, h3, h2.inv, h3, fun _ _ => ?_⟩
    show r.id ∉ (all (view s')).ids
    rw [h2.view]; exact h4
  fuel := fun {s} h => by
    show measure s ≤ s.t1.base.tbl.length + s.t2.base.tbl.length + 1
    rw [measure, ← h.cached.length_eq, contents_len, h.t1.len, h.t2.len]
    omega
  evictLoop := fun {s} r h hok hr hn hme => by
    obtain ⟨s', x, h1, h2⟩ := h.round r hok.2.1 hme
    have hpm : (LPARC.cached s).Perm (x :: LPARC.cached s') := h.cached.symm.trans (h2.perm.trans (h2.rep.cached.cons x))
    refine ⟨s', h1, h2.rep.inv, ?_, (List.sublist_cons_self x _).subperm.trans hpm.symm.subperm, ?_⟩
    · show r.id ∉ (all (view s')).ids
      rw [h2.rep.view]
      exact fun hm => hr (by obtain ⟨y, hy, e⟩ := List.mem_map.1 hm; exact List.mem_map.2 ⟨y, h2.sub.subset hy, e⟩)
    · have := hpm.length_eq
      simp only [measure, List.length_cons] at this ⊢
      omega
  insert := fun {s} r h hok hr hn hme => by
    obtain ⟨s', t', h1, h2, h3⟩ := h.insert_any r hok hr hme
    exact ⟨s', h1, h2.inv, h3.subperm⟩
  userInsert := fun hh => by rw [hins] at hh; cases hh
  remove := fun _ {s} id h => by
    obtain ⟨s', k1, k2, _⟩ := h.remove_spec id
    refine ⟨_, s', k1, k2.inv, ?_⟩
    refine k2.cached.symm.subperm.trans (List.Subperm.trans ?_ h.cached.subperm)
    simp only [contents, CC.ids_filter]
    exact (List.filter_sublist.append List.filter_sublist).subperm
  evict := fun hev => by rw [he] at hev; cases hev
  evictAtMostOne := fun {s s'} r h hok hr hn hme hev => by
    obtain ⟨s'', x, h1, h2⟩ := h.round r hok.2.1 hme
    rw [h1] at hev; cases hev
    exact ⟨[x], by simp, h.cached.symm.trans (h2.perm.trans (h2.rep.cached.cons x))⟩

theorem evictOnDemand {p : Perms} (hp : p.upd = false) (he : p.ev = false) (hins : p.ins = false) :
    EvictOnDemand (algo R) cached (init cs) (Calls p (Fits cs sz)) cs 0 :=
  (contract hp he hins).evictOnDemand (inv_init cs sz) (fun {s s'} r hi hok hf => by
    have hb := Rep.bump hi
    by_cases hin : r.id ∈ (LPARC.cached ((algo R).bump s)).ids
    · obtain ⟨s1, t1, h1, _, h3⟩ := hb.find_hit r hok hin
      rw [show (algo R).find ((algo R).bump s) r true = find ((algo R).bump s) r true from rfl, h1] at hf
      injection hf with hf; injection hf with _ hf; subst hf
      exact h3
    · obtain ⟨s1, t1, h1, _, h3, _⟩ := hb.find_miss r hin
      rw [show (algo R).find ((algo R).bump s) r true = find ((algo R).bump s) r true from rfl, h1] at hf
      injection hf with hf; injection hf with e hf; cases e)
    (fun {s s'} r h hok hr hn hme hi => Or.inl (by
      obtain ⟨s1, t1, h1, _, h3⟩ := h.insert_any r hok hr hme
      rw [show (algo R).insert s r = insert s r from rfl, h1] at hi
      cases hi
      exact h3))

/-! ### whole runs -/

def Idle (s : State R) : Prop := s.inB1 = false ∧ s.inB2 = false

/-- from the answer of `find` on: a miss -/
theorem Rep.rest {s1 : State R} {r : Req} (h : Rep cs sz s1 t) (hok : Fits cs sz r) (hf : (algo R).find ((algo R).bump s) r true = .ok (false, s1)) (hn : r.id ∉ (all t).ids) :
    ∃ s', (algo R).get s r = .ok (false, s') ∧
      (afterGhostHit s1 = true → Rep cs sz s' { room (rule cs r.size s1) cs r.size (t.t1.length + t.t2.length) t with
        t2 := (room (rule cs r.size s1) cs r.size (t.t1.length + t.t2.length) t).t2 ++ [⟨r.id, r.size, 0⟩] } ∧ Idle s') ∧
      (afterGhostHit s1 = false → Idle s1 → Rep cs sz s' { room (rule cs r.size s1) cs r.size (t.t1.length + t.t2.length) t with
        t1 := (room (rule cs r.size s1) cs r.size (t.t1.length + t.t2.length) t).t1 ++ [⟨r.id, r.size, 0⟩] } ∧ Idle s') ∧
      (r.id, r.size) ∈ LPARC.cached s' := by
  obtain ⟨s2, h1, h2, h3, h4, h5⟩ := Rep.loop r hok.2.1 ((algo R).fuel s1) (t.t1.length + t.t2.length) s1 t h
    (by show _ ≤ s1.t1.base.tbl.length + s1.t2.base.tbl.length + 1; rw [h.t1.len, h.t2.len]; omega) (Nat.le_refl _)
  have hm : ¬ cs < _ := fun hh => by rw [(h2.mustEvict_iff r).2 hh] at h4; cases h4
  have hn2 : r.id ∉ (all (room (rule cs r.size s1) cs r.size (t.t1.length + t.t2.length) t)).ids :=
    fun hm => hn (by obtain ⟨y, hy, e⟩ := List.mem_map.1 hm; exact List.mem_map.2 ⟨y, h5.subset hy, e⟩)
  have hag := h3.after
  cases ha : afterGhostHit s1 with
  | true =>
    obtain ⟨s3, k1, k2, _, k3, k4⟩ := h2.insert_t2 r hok hn2 (by omega) (hag.trans ha)
    refine ⟨s3, get_accept hf rfl h1 k1, fun _ => ⟨k2, k3, k4⟩, (by intro hh; cases hh), k2.cached.subset ?_⟩
    simp [contents, ent]
  | false =>
    obtain ⟨s3, k1, k2, _, k3, k4⟩ := h2.insert_t1 r hok hn2 (by omega) (hag.trans ha)
    refine ⟨s3, get_accept hf rfl h1 k1, (by intro hh; cases hh), fun _ hi => ⟨k2, k3.trans (h3.2.1.trans hi.1), k4.trans (h3.2.2.1.trans hi.2)⟩, k2.cached.subset ?_⟩
    simp [contents, ent]

theorem Rep.get_spec (h : Rep cs sz s t) (hi : Idle s) (r : Req) (hok : Fits cs sz r) :
    ∃ s', (algo R).get s r = .ok ((LazyARC.get (aim R cs) cs t r).1, s') ∧ Rep cs sz s' (LazyARC.get (aim R cs) cs t r).2 ∧ Idle s' := by
  have hb := h.bump
  unfold LazyARC.get
  by_cases h1 : r.id ∈ (ent t.t1).ids
  · rw [if_pos h1]
    obtain ⟨s', k1, k2, _, k3, k4, _⟩ := hb.find_t1 r hok h1
    exact ⟨s', get_hit k1, k2, k3, k4⟩
  rw [if_neg h1]
  by_cases h2 : r.id ∈ (ent t.t2).ids
  · rw [if_pos h2]
    obtain ⟨s', k1, k2, _, k3, k4, _⟩ := hb.find_t2 r h2
    exact ⟨s', get_hit k1, k2, k3, k4⟩
  rw [if_neg h2]
  by_cases h3 : r.id ∈ t.b1.ids
  · rw [if_pos h3]
    obtain ⟨s1, k1, k2, k3, k4, k5, k6⟩ := hb.find_b1 r h3
    have ha : afterGhostHit s1 = true := by simp only [afterGhostHit, k3, k4, k6, decide_true, Bool.true_or, Bool.and_self]
    have er : rule cs r.size s1 = LazyARC.replace (aim R cs) cs false := by simp only [rule, ha, if_true, k5]
    obtain ⟨s', j1, j2, _, _⟩ := k2.rest hok k1 (by rw [mem_all]; simp only [not_or]; exact ⟨h1, h2, not_filter _ _, (h.good.onB1 h3).2.2⟩)
    rw [er] at j2
    exact ⟨s', j1, (j2 ha).1, (j2 ha).2⟩
  rw [if_neg h3]
  by_cases h4 : r.id ∈ t.b2.ids
  · rw [if_pos h4]
    obtain ⟨s1, k1, k2, k3, k4, k5, k6⟩ := hb.find_b2 r h4
    have ha : afterGhostHit s1 = true := by simp only [afterGhostHit, k3, k5, k6, decide_true, Bool.or_true, Bool.and_self]
    have er : rule cs r.size s1 = LazyARC.replace (aim R cs) cs true := by simp only [rule, ha, if_true, k5]
    obtain ⟨s', j1, j2, _, _⟩ := k2.rest hok k1 (by rw [mem_all]; simp only [not_or]; exact ⟨h1, h2, h3, not_filter _ _⟩)
    rw [er] at j2
    exact ⟨s', j1, (j2 ha).1, (j2 ha).2⟩
  rw [if_neg h4]
  have hn : r.id ∉ (all t).ids := by rw [mem_all]; simp only [not_or]; exact ⟨h1, h2, h3, h4⟩
  have hI : Idle ((algo R).bump s) := hi
  have ha : afterGhostHit ((algo R).bump s) = false := by simp only [afterGhostHit, hI.1, hI.2, Bool.or_self, Bool.and_false]
  have er : rule cs r.size ((algo R).bump s) = missEvict (aim R cs) cs r.size false := by simp only [rule, ha, Bool.false_eq_true, if_false, hI.2]
  obtain ⟨s', j1, _, j2, _⟩ := hb.rest hok (hb.find_none r hn) hn
  rw [er] at j2
  exact ⟨s', j1, (j2 ha hI).1, (j2 ha hI).2⟩

theorem Rep.step_spec (h : Rep cs sz s t) (hi : Idle s) {p : Perms} (hp : p.upd = false) (he : p.ev = false) (hins : p.ins = false) (op : Op) (hop : Calls p (Fits cs sz) op) :
    ∃ s', (algo R).step s op = .ok ((LazyARC.step (aim R cs) cs t op).1, s') ∧ Rep cs sz s' (LazyARC.step (aim R cs) cs t op).2 ∧ Idle s' := by
  cases op with
  | get r => exact h.get_spec hi r hop
  | find r u =>
    cases u with
    | true =>
      simp only [Calls, hp] at hop
      exact absurd hop (by simp)
    | false =>
      refine ⟨s, ?_, h, hi⟩
      show find s r false = _
      rw [h.find_false r]
      show Except.ok (decide (r.id ∈ (LPARC.cached s).ids), s) = Except.ok (decide (r.id ∈ (contents t).ids), s)
      congr 2
      rw [decide_eq_decide]
      exact (h.cached.map Prod.fst).symm.mem_iff
  | remove id =>
    obtain ⟨s', k1, k2, _, k3, k4⟩ := h.remove_spec id
    exact ⟨s', k1, k2, k3.trans hi.1, k4.trans hi.2⟩
  | evict r => simp only [Calls, he] at hop; exact absurd hop (by simp)
  | insert r => simp only [Calls, hins] at hop; exact absurd hop (by simp)

theorem run_spec {p : Perms} (hp : p.upd = false) (he : p.ev = false) (hins : p.ins = false) : ∀ (ops : List Op) (s : State R) (t : St R.P), (∀ op ∈ ops, Calls p (Fits cs sz) op) →
    Rep cs sz s t → Idle s → ∃ s', (algo R).run s ops = .ok ((LazyARC.run (aim R cs) cs t ops).1, s') ∧ Rep cs sz s' (LazyARC.run (aim R cs) cs t ops).2 ∧ Idle s' := by
  intro ops
  induction ops with
  | nil => intro s t _ h hi; exact ⟨s, rfl, h, hi⟩
  | cons op ops ih =>
    intro s t ho h hi
    obtain ⟨s1, k1, k2, k3⟩ := h.step_spec hi hp he hins op (ho op List.mem_cons_self)
    obtain ⟨s2, j1, j2, j3⟩ := ih s1 _ (fun o hm => ho o (List.mem_cons_of_mem _ hm)) k2 k3
    exact ⟨s2, by simp [Algo.run, k1, j1, LazyARC.run], j2, j3⟩

end

end Verif.LPARC
