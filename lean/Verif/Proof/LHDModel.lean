import Verif.Proof.LHDRun
/-!
# Helper proofs for LHD: the statistics
-/

namespace Verif.LHD
open Verif Spec Spec.LHD
variable {R : Rounding} {cs md : Nat}

theorem fromAge_lt (f : Nat → Rat) {a : Nat} (h : a < 20000) : fromAge f a = f a + fromAge f (a + 1) := by
  unfold fromAge
  obtain ⟨k, hk⟩ : ∃ k, 20000 - a = k + 1 := ⟨20000 - a - 1, by omega⟩
  have hk' : 20000 - (a + 1) = k := by omega
  rw [hk, hk', List.range'_succ]
  simp

theorem fromAge_end (f : Nat → Rat) : fromAge f 20000 = 0 := by
  unfold fromAge
  simp

theorem modelLoop_exact (c : Class) : ∀ (n : Nat), n ≤ 19999 → ∀ (d : Nat → Rat) (a : Nat),
    modelLoop .exact c n (fromAge (fun b => c.hits b + c.evictions b) n) (fromAge c.hits n)
      (fromAge (fun b => fromAge (fun x => c.hits x + c.evictions x) b) n) d a = if a < n then modelled c.hits c.evictions a else d a := by
  intro n
  induction n with
  | zero => intro _ d a; simp [modelLoop]
  | succ n ih =>
    intro hn d a
    have e1 := fromAge_lt (fun b => c.hits b + c.evictions b) (a := n) (by omega)
    have e2 := fromAge_lt c.hits (a := n) (by omega)
    have e3 := fromAge_lt (fun b => fromAge (fun x => c.hits x + c.evictions x) b) (a := n) (by omega)
    show modelLoop .exact c n (fromAge (fun b => c.hits b + c.evictions b) (n + 1) + (c.hits n + c.evictions n)) (fromAge c.hits (n + 1) + c.hits n)
      (fromAge (fun b => fromAge (fun x => c.hits x + c.evictions x) b) (n + 1) + (fromAge (fun b => c.hits b + c.evictions b) (n + 1) + (c.hits n + c.evictions n)))
      (set d n (if fromAge (fun b => c.hits b + c.evictions b) (n + 1) + (c.hits n + c.evictions n) > 1 / 100000 then
        (fromAge c.hits (n + 1) + c.hits n) / (fromAge (fun b => fromAge (fun x => c.hits x + c.evictions x) b) (n + 1) +
          (fromAge (fun b => c.hits b + c.evictions b) (n + 1) + (c.hits n + c.evictions n))) else 0)) a = _
    have f1 : fromAge (fun b => c.hits b + c.evictions b) (n + 1) + (c.hits n + c.evictions n) = fromAge (fun b => c.hits b + c.evictions b) n := by
      rw [e1]; ring
    have f2 : fromAge c.hits (n + 1) + c.hits n = fromAge c.hits n := by rw [e2]; ring
    have f3 : fromAge (fun b => fromAge (fun x => c.hits x + c.evictions x) b) (n + 1) + fromAge (fun x => c.hits x + c.evictions x) n =
        fromAge (fun b => fromAge (fun x => c.hits x + c.evictions x) b) n := by rw [e3]; ring
    rw [f1, f2, f3]
    refine (ih (by omega) (set d n (modelled c.hits c.evictions n)) a).trans ?_
    unfold LHD.set
    by_cases h1 : a < n
    · rw [if_pos h1, if_pos (by omega)]
    · rw [if_neg h1]
      by_cases h2 : a = n
      · subst h2; simp
      · rw [if_neg h2, if_neg (by omega)]

theorem modelClass_exact (c : Class) (a : Nat) (ha : a < 19999) : (modelClass .exact c).dens a = modelled c.hits c.evictions a := by
  obtain ⟨n, hn⟩ : ∃ n, n = maxAge - 1 := ⟨_, rfl⟩
  have hn' : n = 19999 := hn
  have h := modelLoop_exact c n (by omega) c.dens a
  rw [if_pos (by omega)] at h
  have h20 : n + 1 = 20000 := by omega
  have e1 : fromAge (fun b => c.hits b + c.evictions b) n = c.hits n + c.evictions n := by
    rw [fromAge_lt _ (by omega), h20, fromAge_end]; ring
  have e2 : fromAge c.hits n = c.hits n := by
    rw [fromAge_lt _ (by omega), h20, fromAge_end]; ring
  have e3 : fromAge (fun b => fromAge (fun x => c.hits x + c.evictions x) b) n = c.hits n + c.evictions n := by
    rw [fromAge_lt _ (by omega), h20, fromAge_end, e1]; ring
  rw [e1, e2, e3] at h
  unfold modelClass
  rw [← hn]
  clear hn hn' h20
  exact h

theorem modelClass_hits (c : Class) : (modelClass R c).hits = c.hits ∧ (modelClass R c).evictions = c.evictions := by
  unfold modelClass
  generalize modelLoop R c _ _ _ _ _ = d
  exact ⟨rfl, rfl⟩

theorem reconfigure_fits (s : State) (c a : Nat) (ha : a < 19999) : ((reconfigure .exact s).classes c).dens a =
    modelled ((reconfigure .exact s).classes c).hits ((reconfigure .exact s).classes c).evictions a := by
  unfold reconfigure
  dsimp only
  rw [(modelClass_hits _).1, (modelClass_hits _).2]
  exact modelClass_exact _ a ha

/-- An access that reconfigures leaves hit densities that fit the statistics. -/
theorem tick_fits (s : State) (h : s.nextReconfiguration = 1) (c a : Nat) (ha : a < 19999) : ((tick .exact s).classes c).dens a =
    modelled ((tick .exact s).classes c).hits ((tick .exact s).classes c).evictions a := by
  unfold tick
  rw [if_pos (by omega)]
  have k := reconfigure_fits { s with timestamp := s.timestamp + 1, nextReconfiguration := s.nextReconfiguration - 1 } c a ha
  revert k
  generalize reconfigure Rounding.exact { s with timestamp := s.timestamp + 1, nextReconfiguration := s.nextReconfiguration - 1 } = X
  exact fun k => k

/-- Between reconfigurations, an access leaves the statistics as they are. -/
theorem tick_quiet (s : State) (h : s.nextReconfiguration ≠ 1) (h' : s.nextReconfiguration ≠ 0) :
    tick R s = { s with timestamp := s.timestamp + 1, nextReconfiguration := s.nextReconfiguration - 1 } := by
  unfold tick
  rw [if_neg (by omega)]

theorem touchTag_tick {s : State} {i : Nat} {t : Tag} {ins : Bool} {z : Nat} (hz : 0 < z) :
    ∃ X : State, touchTag R s i t ins z = .ok (tick R X) ∧ X.classes = s.classes ∧ X.tags = s.tags.set i (stamp R s z t) ∧
      X.nextReconfiguration = s.nextReconfiguration ∧ X.shift = s.shift := by
  have h1 : 1 ≤ (stamp R s z t).size := R.one_le (by exact_mod_cast hz)
  have h2 := density_eq (R := R) (s := s) (t := stamp R s z t) rfl h1
  unfold touchTag
  rw [h2, Res.bind_ok]
  exact ⟨_, rfl, rfl, rfl, rfl, rfl⟩

theorem next_pos {s : State} (h : Clock R s) : s.nextReconfiguration ≠ 0 := by
  rw [h.next]
  have := Nat.mod_lt s.timestamp (show 0 < 2 ^ 20 by decide)
  omega

theorem next_one {s : State} (h : Clock R s) : s.nextReconfiguration = 1 ↔ (s.timestamp + 1) % 2 ^ 20 = 0 := by
  rw [h.next]
  have := Nat.mod_lt s.timestamp (show 0 < 2 ^ 20 by decide)
  omega

/-- What a hit records. -/
theorem find_counts {s : State} (h : Inv0 R cs md s) {r : Req} (hr : Sized md r) (hin : r.id ∈ s.sizeMap.map Prod.fst) :
    ∃ i t s', s.tags[i]? = some t ∧ t.id = r.id ∧ find R s r true = .ok (true, s') ∧
      s'.tags = s.tags.set i { t with timestamp := s.timestamp, lastLastHitAge := t.lastHitAge, lastHitAge := objAge s t, size := R.rnd r.size, explorer := explorer { s with budget := giveBack R s t } } ∧
      ((s.timestamp + 1) % 2 ^ 20 ≠ 0 → s'.shift = s.shift ∧ s'.classes = set s.classes (objClass t) (addHit R (s.classes (objClass t)) (objAge s t))) ∧
      ((s.timestamp + 1) % 2 ^ 20 = 0 → R = .exact → ∀ c a, a < 19999 → (s'.classes c).dens a = modelled (s'.classes c).hits (s'.classes c).evictions a) := by
  obtain ⟨i, t, h1, h2, h3⟩ := h.t.some hin
  have hta := h.t.app t (List.mem_of_getElem? h2)
  obtain ⟨z, hz⟩ := lookup_some hin
  unfold find
  simp only [hz, if_true]
  generalize hS : (if z ≠ r.size then ({ s with
            base := { s.base with occ := s.base.occ - (z : Int) + (r.size : Int) }
            sizeMap := s.sizeMap.map (fun x => if x.1 = r.id then (x.1, r.size % u32) else x) } : State) else s) = S
  have g : S.indices = s.indices ∧ S.tags = s.tags ∧ S.classes = s.classes ∧ S.timestamp = s.timestamp ∧ S.nextReconfiguration = s.nextReconfiguration ∧
      S.shift = s.shift ∧ S.budget = s.budget ∧ S.picks = s.picks ∧ S.numReconfigurations = s.numReconfigurations := by
    subst hS
    split <;> exact ⟨rfl, rfl, rfl, rfl, rfl, rfl, rfl, rfl, rfl⟩
  obtain ⟨g1, g2, g3, g4, g5, g6, g7, g8, g9⟩ := g
  have hage : age S t = age s t := by unfold age; rw [g4, g6]
  have hgb : giveBack R S t = giveBack R s t := by unfold giveBack; rw [g7]
  unfold update
  simp only [g1, g2, h1, h2]
  rw [if_neg (not_not.2 h3), if_neg (Nat.not_le.2 (classId_lt hta)), hage, g3, hgb]
  obtain ⟨X, k1, k2, k3, k4, k5⟩ := touchTag_tick (R := R)
    (s := { S with tags := s.tags, indices := s.indices, classes := set s.classes (classId t) (addHit R (s.classes (classId t)) (age s t)), budget := giveBack R s t })
    (i := i) (t := { t with lastLastHitAge := t.lastHitAge, lastHitAge := age s t }) (ins := false) hr.1
  rw [k1, Res.bind_ok]
  have hn : X.nextReconfiguration = s.nextReconfiguration := k4.trans g5
  refine ⟨i, t, _, h2, h3, rfl, ?_, ?_, ?_⟩
  all_goals first | rw [← classId_eq hta] | skip
  all_goals try rw [← age_eq]
  · rw [(tick_frame X).2.2.1, k3]
    simp only [stamp, explorer, explore, g4, g8, g9]
    congr 1
    rw [hta]
    rfl
  · intro hno
    have : s.nextReconfiguration ≠ 1 := fun e => hno ((next_one h.t.clk).1 e)
    rw [tick_quiet X (by rw [hn]; exact this) (by rw [hn]; exact next_pos h.t.clk)]
    exact ⟨k5.trans g6, k2⟩
  · intro hyes hR c a ha
    have : s.nextReconfiguration = 1 := (next_one h.t.clk).2 hyes
    subst hR
    exact tick_fits X (by rw [hn]; exact this) c a ha

/-- What an insertion records. -/
theorem insert_counts {s : State} (h : Inv0 R cs md s) {r : Req} (hr : Sized md r) (hn : r.id ∉ s.sizeMap.map Prod.fst) :
    ∃ s', insert R s r = .ok s' ∧
      s'.tags = s.tags ++ [{ timestamp := s.timestamp, lastLastHitAge := 20000, lastHitAge := 0, app := 1, id := r.id, size := R.rnd r.size, explorer := explorer s }] ∧
      ((s.timestamp + 1) % 2 ^ 20 ≠ 0 → s'.shift = s.shift ∧ s'.classes = s.classes) ∧
      ((s.timestamp + 1) % 2 ^ 20 = 0 → R = .exact → ∀ c a, a < 19999 → (s'.classes c).dens a = modelled (s'.classes c).hits (s'.classes c).evictions a) := by
  have hno : s.indices r.id = none := h.t.none hn
  unfold insert update
  dsimp only
  rw [hno]
  dsimp only
  obtain ⟨X, k1, k2, k3, k4, k5⟩ := touchTag_tick (R := R)
    (s := { s with sizeMap := (r.id, r.size % u32) :: s.sizeMap.filter (fun x => x.1 ≠ r.id), tags := s.tags ++ [{ lastLastHitAge := maxAge, lastHitAge := 0, id := r.id }], indices := set s.indices r.id (some s.tags.length) })
    (i := s.tags.length) (t := { lastLastHitAge := maxAge, lastHitAge := 0, id := r.id }) (ins := true) hr.1
  rw [k1, Res.bind_ok]
  refine ⟨_, rfl, ?_, ?_, ?_⟩
  · show (tick R X).tags = _
    rw [(tick_frame X).2.2.1, k3]
    rw [List.set_append_right _ _ (le_refl _), Nat.sub_self, List.set_cons_zero]
    rfl
  · intro hq
    have : s.nextReconfiguration ≠ 1 := fun e => hq ((next_one h.t.clk).1 e)
    show (tick R X).shift = _ ∧ (tick R X).classes = _
    rw [tick_quiet X (by rw [k4]; exact this) (by rw [k4]; exact next_pos (s := s) h.t.clk)]
    exact ⟨k5, k2⟩
  · intro hyes hR c a ha
    have : s.nextReconfiguration = 1 := (next_one h.t.clk).2 hyes
    subst hR
    exact tick_fits X (by rw [k4]; exact this) c a ha

/-- What an eviction records. -/
theorem evict_counts {s : State} (h : Inv R cs md s) (hne : s.sizeMap ≠ []) :
    ∃ t s', evict R s = .ok s' ∧ Worst R s t ∧ s'.sizeMap = s.sizeMap.filter (fun x => x.1 ≠ t.id) ∧
      s'.classes = set s.classes (objClass t) (addEviction R (s.classes (objClass t)) (objAge s t)) ∧ s.tags.Perm (t :: s'.tags) := by
  obtain ⟨t, ew, h1, h2, h3, h4⟩ := rank_spec h.t (tags_ne h.toInv0 hne)
  have hin : t.id ∈ s.sizeMap.map Prod.fst := h.t.perm.subset (List.mem_map.2 ⟨t, h2, rfl⟩)
  obtain ⟨z, hz⟩ := lookup_some hin
  obtain ⟨i, t', i1, i2, i3⟩ := h.t.some hin
  have htt : t' = t := by
    obtain ⟨j, hj⟩ := List.mem_iff_getElem?.1 h2
    have : s.indices t.id = some j := (h.t.idx _ _).2 ⟨t, hj, rfl⟩
    rw [i1] at this
    cases this
    rw [i2] at hj
    exact Option.some.inj hj
  subst htt
  have hta := h.t.app t' h2
  unfold evict
  rw [if_neg (by have := h.vt; omega), h1, Res.bind_ok]
  unfold evictThis
  have hz' : lookup ({ s with picks := s.picks.drop (candidates s), ewmaVictim := ew } : State) t'.id = some z := hz
  simp only [hz']
  unfold replaced
  simp only [forget, i1, i2]
  rw [if_neg (not_not.2 rfl), if_neg (Nat.not_le.2 (classId_lt hta))]
  generalize hX : (({ s with
      base := { s.base with occ := s.base.occ - (((z + s.base.objMd) % u32 : Nat) : Int), nObj := s.base.nObj - 1 }
      sizeMap := s.sizeMap.filter (fun x => x.1 ≠ t'.id)
      picks := s.picks.drop (candidates s), ewmaVictim := ew
      classes := set s.classes (classId t') (addEviction R (s.classes (classId t')) (age s t'))
      budget := giveBack R s t' }) : State) = X
  have hXt : X.tags = s.tags := by subst hX; rfl
  have hXi : X.indices = s.indices := by subst hX; rfl
  have hXc : X.classes = set s.classes (classId t') (addEviction R (s.classes (classId t')) (age s t')) := by subst hX; rfl
  have hXs : X.sizeMap = s.sizeMap.filter (fun x => x.1 ≠ t'.id) := by subst hX; rfl
  obtain ⟨s', l, k1, k2, k3, k4, k5⟩ := swapRemove_spec (s := X) (id := t'.id) (i := i) (t := t') (by rw [hXt]; exact i2) rfl (by rw [hXt, hXi]; exact h.t.idx)
  refine ⟨t', s', ?_, ⟨h2, h3, h4⟩, by rw [k2]; exact hXs, by rw [k2, ← classId_eq hta, ← age_eq]; exact hXc, by rw [k2, ← hXt]; exact k3⟩
  rw [← k1, ← hX]
  rfl

end Verif.LHD
