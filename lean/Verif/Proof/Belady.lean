import Verif.Proof.PQCache
import Verif.Proof.Double
import Verif.Proof.Optimal
/-!
# Belady on equally large objects
-/

namespace Verif.Belady
open Verif Spec PQCache

/-- requests Belady accepts: a next access time of -1 aborts -/
def Ok (md : Nat) (r : Req) : Prop := SizeOk md r ∧ r.next ≠ -1

theorem insert_ok {md : Nat} (s : State) (r : Req) (h : Ok md r) : insert s r = PQCache.insert key s r := by simp [insert, h.2]

theorem spec (cs md : Nat) : SBSpec algo (fun s => s.base) (fun s b => { s with base := b }) (Inv cs md) cs md {} (Ok md) :=
  PQCache.spec cs md key insert (Ok md) (fun _ h => h.1) insert_ok

theorem strong (cs md : Nat) : SBStrong algo (fun s => s.base) (Inv cs md) cs md core {} (Ok md) :=
  (spec cs md).strong core (fun _ _ _ => rfl)

theorem toEvict_spec {cs md : Nat} {s : State} (h : Inv cs md s) (hne : s.base.tbl ≠ []) :
    ∃ id n s', toEvict s = some id ∧ evict s = .ok s' ∧ s.base.cached.Perm ((id, n) :: s'.base.cached) := by
  obtain ⟨s', o, k, h1, _, h3, _, _, h6, _⟩ := evict_spec h hne
  exact ⟨o.id, o.size, s', h6, h1, h3⟩

/-- the invariant on equally large objects without admission policy -/
structure UInv (cs md sz : Nat) (s : State) : Prop where
  inv : Inv cs md s
  adm : s.base.adm = .none
  size : ∀ x ∈ s.base.cached, x.2 = sz

theorem charge_unit {md sz : Nat} : ∀ {c : List (ObjId × Nat)}, (∀ x ∈ c, x.2 = sz) → charge md c = c.length * (sz + md)
  | [], _ => by simp [charge]
  | x :: c, h => by
    simp only [charge, List.length_cons]
    rw [charge_unit (fun y hy => h y (by simp [hy])), h x (by simp), Nat.add_mul]
    omega

def ids (s : State) : List ObjId := s.base.cached.map Prod.fst

theorem ids_length (s : State) : (ids s).length = s.base.tbl.length := by simp [ids, Base.cached]

theorem UInv.occ {cs md sz : Nat} {s : State} (h : UInv cs md sz s) : s.base.occ = ((ids s).length * (sz + md) : Nat) := by
  rw [h.inv.base.inv.occ_eq, h.inv.base.md, charge_unit h.size]
  simp [ids]

theorem UInv.nodup {cs md sz : Nat} {s : State} (h : UInv cs md sz s) : (ids s).Nodup := by
  rw [ids, map_id_eq]; exact h.inv.base.inv.nodup

theorem UInv.card {cs md sz : Nat} {s : State} (h : UInv cs md sz s) : (ids s).toFinset.card = (ids s).length :=
  List.toFinset_card_of_nodup h.nodup

theorem UInv.len_le {cs md sz : Nat} {s : State} (h : UInv cs md sz s) (hu : 0 < sz + md) : (ids s).length ≤ cs / (sz + md) := by
  have := h.inv.base.inv.cap
  rw [h.occ, h.inv.base.cs] at this
  exact (Nat.le_div_iff_mul_le hu).2 (by exact_mod_cast this)

theorem must_iff {cs md sz : Nat} {s : State} (h : UInv cs md sz s) (hu : 0 < sz + md) {r : Req} (hr : r.size = sz) :
    algo.mustEvict s r = decide (cs / (sz + md) ≤ (ids s).length) := by
  simp only [Algo.mustEvict]
  have e : algo.occ s + (r.size : Int) + (algo.md s : Int) = (((ids s).length + 1) * (sz + md) : Nat) := by
    show s.base.occ + (r.size : Int) + (s.base.objMd : Int) = _
    rw [h.occ, hr, h.inv.base.md]
    push_cast
    rw [Int.add_mul]; omega
  have e2 : algo.cacheSize s = cs := h.inv.base.cs
  rw [e, e2]
  have : (((ids s).length + 1) * (sz + md) > cs) ↔ cs / (sz + md) ≤ (ids s).length := by
    rw [gt_iff_lt, ← Nat.not_le, ← Nat.le_div_iff_mul_le hu]; omega
  apply decide_eq_decide.2
  rw [← this]
  constructor
  · intro h; exact_mod_cast h
  · intro h; exact_mod_cast h

/-- One request for an object of the common size. -/
theorem get_unit {cs md sz : Nat} {s : State} (h : UInv cs md sz s) (hu : 0 < sz + md) (hfit : sz + md ≤ cs) (hsm : sz + md < u32) {r : Req}
    (hr : r.size = sz) (hn1 : r.next ≠ -1) :
    ∃ s', algo.get s r = .ok (decide (r.id ∈ ids s), s') ∧ UInv cs md sz s' ∧
      (∀ id ∈ ids s', keyOf s' id = if id = r.id then some (key r) else keyOf s id) ∧
      ((ids s').toFinset = Insert.insert r.id (ids s).toFinset ∨
        (r.id ∉ ids s ∧ (ids s).length = cs / (sz + md) ∧ ∃ v ∈ ids s, (∃ kv, keyOf s v = some kv ∧ ∀ y k, keyOf s y = some k → k ≤ kv) ∧
          (ids s').toFinset = Insert.insert r.id ((ids s).toFinset.erase v))) := by
  have hszu : sz % u32 = sz := Nat.mod_eq_of_lt (by omega)
  have hok : SizeOk md r := by rw [SizeOk, hr, hszu]; exact hsm
  have C := strong cs md
  -- the request counter
  set sb : State := { s with base := s.base.bump } with hsb
  have hib : Inv cs md sb := h.inv.frame _ _
  by_cases hin : r.id ∈ ids s
  · have : (sb.base.lookup r.id).isSome = true := by rw [lookup_isSome_iff, decide_eq_true_eq]; exact hin
    obtain ⟨o, ho⟩ := Option.isSome_iff_exists.1 this
    obtain ⟨s', f1, f2, f3, f4⟩ := find_hit (key := key) hib ho
    have hc : s'.base.cached = s.base.cached := by
      rw [f3]; exact Base.cached_modify _ _ (touch r) (fun _ => rfl) (fun _ => rfl)
    have hids : ids s' = ids s := by rw [ids, hc, ids]
    refine ⟨s', ?_, ⟨f2, ?_, ?_⟩, ?_, .inl ?_⟩
    · rw [get_hit (A := algo) (s := s) (s1 := s') f1]; simp [hin]
    · rw [f3]; exact h.adm
    · rw [hc]; exact h.size
    · intro id _; rw [f4]; rfl
    · rw [hids, Finset.insert_eq_of_mem (by simpa using hin)]
  · have hno : sb.base.lookup r.id = none := lookup_none_iff'.2 hin
    have hf : algo.find (algo.bump s) r true = .ok (false, sb) := find_miss (key := key) hno
    -- admission
    have hcan : algo.canInsert sb r = (true, sb) := by
      show ((sb.base.canInsertDefault r).1, { sb with base := (sb.base.canInsertDefault r).2 }) = _
      have e : sb.base.adm = .none := h.adm
      rw [canInsertDefault_eq]
      have e1 : admitsBase sb.base r = true := by
        have h1 : sb.base.objMd = md := h.inv.base.md
        have h2 : sb.base.cacheSize = cs := h.inv.base.cs
        simp only [admitsBase, e, Adm.admit, h1, h2, hr]
        simpa using hfit
      have e2 : (sb.base.adm.admit r).2 = sb.base.adm := by rw [e]; rfl
      rw [e1, e2]
    have hub : UInv cs md sz sb := ⟨hib, h.adm, h.size⟩
    have hidb : ids sb = ids s := rfl
    -- after making room
    have key2 : ∀ s3 : State, algo.evictLoop r (algo.fuel sb) sb = .ok s3 → UInv cs md sz s3 → r.id ∉ ids s3 →
        (ids s3).length < cs / (sz + md) →
        ∃ s', algo.get s r = .ok (false, s') ∧ UInv cs md sz s' ∧ ids s' = r.id :: ids s3 ∧
          ∀ id, keyOf s' id = if id = r.id then some (key r) else keyOf s3 id := by
      intro s3 h1 h2 h3 h4
      have hroom : s3.base.occ + r.size + md ≤ cs := by
        have := (must_iff h2 hu hr)
        simp only [Nat.not_le.2 h4, decide_false, Algo.mustEvict, decide_eq_false_iff_not, Int.not_lt] at this
        have e1 : algo.md s3 = md := h2.inv.base.md
        have e2 : algo.cacheSize s3 = cs := h2.inv.base.cs
        rw [e1, e2] at this
        exact this
      obtain ⟨s', i1, i2, i3, i4⟩ := PQCache.insert_spec (key := key) h2.inv (lookup_none_iff'.2 h3) hroom hok
      have hins : algo.insert s3 r = .ok s' := (insert_ok (md := md) s3 r ⟨hok, hn1⟩).trans i1
      have hc : s'.base.cached = (r.id, r.size % u32) :: s3.base.cached := by rw [i3, cached_insertBase]
      refine ⟨s', get_accept hf hcan h1 hins, ⟨i2, ?_, ?_⟩, ?_, i4⟩
      · rw [i3]; exact h2.adm
      · intro x hx
        rw [hc] at hx
        rcases List.mem_cons.1 hx with rfl | hx
        · rw [hr]; exact hszu
        · exact h2.size x hx
      · rw [ids, hc]; rfl
    have hmust := must_iff hub hu hr
    rw [hidb] at hmust
    by_cases hfull : cs / (sz + md) ≤ (ids s).length
    · -- one eviction
      have hlen : (ids s).length = cs / (sz + md) := Nat.le_antisymm (h.len_le hu) hfull
      have hk1 : 1 ≤ cs / (sz + md) := (Nat.le_div_iff_mul_le hu).2 (by omega)
      have hne : sb.base.tbl ≠ [] := by
        intro e
        have hl : (ids s).length = s.base.tbl.length := ids_length s
        have e' : s.base.tbl = [] := e
        rw [e', List.length_nil] at hl; omega
      obtain ⟨s3, o, k, e1, e2, e3, e4, e5, e6, e7, e8, e9⟩ := evict_spec hib hne
      have hu3 : UInv cs md sz s3 := ⟨e2, e5.trans h.adm, fun x hx => h.size x (e3.symm.subset (by simp [hx]))⟩
      have hidp : (ids s).Perm (o.id :: ids s3) := by
        exact e3.map Prod.fst
      have hl3 : (ids s3).length + 1 = (ids s).length := by have := hidp.length_eq; simp at this; omega
      have hn3 : r.id ∉ ids s3 := fun hm => hin (hidp.symm.subset (by simp [hm]))
      have hm3 : algo.mustEvict s3 r = false := by rw [must_iff hu3 hu hr]; simp; omega
      have hloop : algo.evictLoop r (algo.fuel sb) sb = .ok s3 := by
        have hfl : algo.fuel sb = (ids s).length := (ids_length s).symm
        rw [hfl, ← hl3]
        have hmt : algo.mustEvict sb r = true := by rw [hmust]; simpa using hfull
        have ee : algo.evict sb r = .ok s3 := e1
        simp only [Algo.evictLoop, hmt, if_true, ee, Res.bind_ok]
        cases (ids s3).length <;> simp [Algo.evictLoop, hm3]
      obtain ⟨s', g1, g2, g3, g4⟩ := key2 s3 hloop hu3 hn3 (by omega)
      have hnd := h.nodup
      have hvd := hidp.nodup_iff.1 hnd
      rw [List.nodup_cons] at hvd
      refine ⟨s', by rw [g1]; simp [hin], g2, ?_, .inr ⟨hin, hlen, o.id, hidp.symm.subset (by simp), ⟨k, e7, fun y k' hk' => e8 y k' hk'⟩, ?_⟩⟩
      · intro id hid
        rw [g4]
        split
        · rfl
        · rename_i hne'
          rw [e9]
          have : id ∈ ids s3 := by
            rw [g3] at hid
            rcases List.mem_cons.1 hid with e | e
            · exact absurd e hne'
            · exact e
          have : id ≠ o.id := by rintro rfl; exact hvd.1 this
          rw [if_neg this]; rfl
      · rw [g3]
        ext y
        simp only [List.toFinset_cons, Finset.mem_insert, List.mem_toFinset, Finset.mem_erase]
        constructor
        · rintro (e | e)
          · exact .inl e
          · refine .inr ⟨?_, hidp.symm.subset (by simp [e])⟩
            rintro rfl; exact hvd.1 e
        · rintro (e | ⟨e, e'⟩)
          · exact .inl e
          · have := hidp.subset e'
            rcases List.mem_cons.1 this with e2 | e2
            · exact absurd e2 e
            · exact .inr e2
    · have hloop : algo.evictLoop r (algo.fuel sb) sb = .ok sb := by
        have hmf : algo.mustEvict sb r = false := by rw [hmust]; simpa using hfull
        cases algo.fuel sb <;> simp [Algo.evictLoop, hmf]
      obtain ⟨s', g1, g2, g3, g4⟩ := key2 sb hloop hub hin (by rw [hidb]; omega)
      refine ⟨s', by rw [g1]; simp [hin], g2, fun id _ => by rw [g4]; rfl, .inl ?_⟩
      rw [g3, hidb]; simp

/-- the times of the trace: increasing and small enough to be exact -/
structure Times (vt : Nat → Int) : Prop where
  mono : StrictMono vt
  pos : ∀ t, 0 ≤ vt t

theorem nextUse_gt {vt : Nat → Int} (hv : StrictMono vt) {now : Int} (hmax : now < int64Max) :
    ∀ (l : List ObjId) (t : Nat), now < vt t → ∀ y, now < nextUse vt t l y
  | [], _, _, _ => hmax
  | x :: l, t, ht, y => by
    simp only [nextUse]
    split
    · exact ht
    · exact nextUse_gt hv hmax l (t + 1) (ht.trans (hv (Nat.lt_succ_self t))) y

theorem nextUse_exact {vt : Nat → Int} (hp : ∀ t, 0 ≤ vt t) : ∀ (l : List ObjId) (t : Nat), (∀ i, i < t + l.length → vt i ≤ 9007199254740992) →
    ∀ y, ExactDbl (nextUse vt t l y)
  | [], _, _, _ => .inr rfl
  | x :: l, t, hb, y => by
    simp only [nextUse]
    split
    · have := hp t
      exact .inl ⟨by omega, hb t (by simp)⟩
    · exact nextUse_exact hp l (t + 1) (fun i hi => hb i (by simp at *; omega)) y

theorem nextUse_nonneg {vt : Nat → Int} (hp : ∀ t, 0 ≤ vt t) : ∀ (l : List ObjId) (t : Nat) (y), 0 ≤ nextUse vt t l y
  | [], _, _ => by simp [nextUse]
  | x :: l, t, y => by
    simp only [nextUse]
    split
    · exact hp t
    · exact nextUse_nonneg hp l (t + 1) y

/-- The whole trace: no cache gets more hits than Belady plus its lead; and Belady itself is one of the players. -/
theorem optimal {cs md sz : Nat} {vt : Nat → Int} (hv : Times vt) (hu : 0 < sz + md) (hfit : sz + md ≤ cs) (hsm : sz + md < u32) :
    ∀ (rs : List Req) (t : Nat) (s : State), UInv cs md sz s → (∀ r ∈ rs, r.size = sz) → Annotated vt t rs →
      (∀ i, i < t + rs.length → vt i ≤ 9007199254740992) →
      (∀ id ∈ ids s, keyOf s id = some (dbl (nextUse vt t (rs.map Req.id) id))) →
      ∃ out s', algo.gets s rs = .ok (out, s') ∧ Play (cs / (sz + md)) (ids s).toFinset (rs.map Req.id) (out.count true) ∧
        ∀ (d : Int) (C : Finset ObjId) (hC : C.card ≤ cs / (sz + md)) (hd : 0 ≤ d),
          (∀ τ, vt t ≤ τ → (cnt (nextUse vt t (rs.map Req.id)) τ C : Int) - cnt (nextUse vt t (rs.map Req.id)) τ (ids s).toFinset ≤ d) →
          ∀ hits, Play (cs / (sz + md)) C (rs.map Req.id) hits → (hits : Int) ≤ out.count true + d
  | [], t, s, _, _, _, _, _ => by
    refine ⟨[], s, rfl, .done _, ?_⟩
    intro d C hC hd _ hits hp
    cases hp
    simpa using hd
  | r :: rs, t, s, h, hsz, hann, hbd, hkeys => by
    obtain ⟨hnext, hann'⟩ := hann
    have hr := hsz r (by simp)
    have hn1 : r.next ≠ -1 := by
      rw [hnext]
      have := nextUse_nonneg hv.pos (rs.map Req.id) (t + 1) r.id
      omega
    obtain ⟨s', g1, g2, g3, g4⟩ := get_unit h hu hfit hsm hr hn1
    have hfx : nextUse vt t ((r :: rs).map Req.id) r.id = vt t := by simp [nextUse]
    have hfg : ∀ y, y ≠ r.id → nextUse vt t ((r :: rs).map Req.id) y = nextUse vt (t + 1) (rs.map Req.id) y := by
      intro y hy
      rw [List.map_cons, nextUse, if_neg (fun e : r.id = y => hy e.symm)]
    have hex : ∀ y, ExactDbl (nextUse vt t ((r :: rs).map Req.id) y) :=
      nextUse_exact hv.pos _ t (by simpa using hbd)
    have hidsub : ∀ id ∈ ids s', id = r.id ∨ id ∈ ids s := by
      intro id hid
      have : id ∈ (ids s').toFinset := by simpa using hid
      rcases g4 with e | ⟨_, _, v, _, _, e⟩
      · rw [e] at this; simpa using this
      · rw [e] at this
        simp only [Finset.mem_insert, Finset.mem_erase, List.mem_toFinset] at this
        rcases this with e | e
        · exact .inl e
        · exact .inr e.2
    have hkeys' : ∀ id ∈ ids s', keyOf s' id = some (dbl (nextUse vt (t + 1) (rs.map Req.id) id)) := by
      intro id hid
      rw [g3 id hid]
      by_cases e : id = r.id
      · subst e; simp [key, hnext]
      · rw [if_neg e]
        rcases hidsub id hid with e' | e'
        · exact absurd e' e
        · rw [hkeys id e', hfg id e]
    obtain ⟨out, s'', r1, r2, r3⟩ := optimal hv hu hfit hsm rs (t + 1) s' g2 (fun r' h' => hsz r' (by simp [h'])) hann'
      (fun i hi => hbd i (by simp; omega)) hkeys'
    have hcard : (ids s').toFinset.card ≤ cs / (sz + md) := by rw [g2.card]; exact g2.len_le hu
    refine ⟨decide (r.id ∈ ids s) :: out, s'', ?_, ?_, ?_⟩
    · simp only [Algo.gets, g1, Res.bind_ok, r1]
    · by_cases hin : r.id ∈ ids s
      · simp only [hin, decide_true, List.count_cons_self, List.map_cons]
        refine .hit (c' := (ids s').toFinset) (by simpa using hin) ?_ r2
        intro y hy
        rcases hidsub y (by simpa using hy) with e | e
        · rw [e]; simpa using hin
        · simpa using e
      · simp only [hin, decide_false, List.map_cons]
        rw [List.count_cons_of_ne (by simp)]
        refine .miss (c' := (ids s').toFinset) (by simpa using hin) ?_ ?_ hcard r2
        · intro y hy
          rcases hidsub y (by simpa using hy) with e | e
          · simp [e]
          · simp [e]
        · rcases g4 with e | ⟨_, _, v, _, _, e⟩ <;> rw [e] <;> simp
    · intro d C hC hd hI hits hp
      -- the victim is used furthest in the future
      have hB : (ids s').toFinset = Insert.insert r.id (ids s).toFinset ∨ (r.id ∉ (ids s).toFinset ∧ (ids s).toFinset.card = cs / (sz + md) ∧
          ∃ v ∈ (ids s).toFinset, (∀ y ∈ (ids s).toFinset, nextUse vt t ((r :: rs).map Req.id) y ≤ nextUse vt t ((r :: rs).map Req.id) v) ∧
            (ids s').toFinset = Insert.insert r.id ((ids s).toFinset.erase v)) := by
        rcases g4 with e | ⟨e1, e2, v, e3, ⟨kv, e4, e5⟩, e6⟩
        · exact .inl e
        · refine .inr ⟨by simpa using e1, by rw [h.card, e2], v, by simpa using e3, ?_, e6⟩
          intro y hy
          have hy' : y ∈ ids s := by simpa using hy
          have := e5 y _ (hkeys y hy')
          rw [hkeys v e3] at e4
          rw [← Option.some.inj e4] at this
          exact (hex y).le_of_dbl (hex v) this
      have hnow : vt t < int64Max := by
        have := hbd t (by simp)
        simp only [int64Max]; omega
      have hgt : ∀ y, vt t < nextUse vt (t + 1) (rs.map Req.id) y := nextUse_gt hv.mono hnow _ _ (hv.mono (Nat.lt_succ_self t))
      have step : ∀ (C' : Finset ObjId), C'.card ≤ cs / (sz + md) → C' ⊆ Insert.insert r.id C → (r.id ∉ C → r.id ∈ C') → ∀ hits',
          Play (cs / (sz + md)) C' (rs.map Req.id) hits' →
          (hits' : Int) ≤ out.count true + (d + (if r.id ∈ C then 0 else 1) - (if r.id ∈ (ids s).toFinset then 0 else 1)) := by
        intro C' hc1 hc2 hc3 hits' hp'
        obtain ⟨p1, p2⟩ := gap_step (g := nextUse vt (t + 1) (rs.map Req.id)) hfx hfg hgt hC hc1 hc2 hc3 hB hd hI
        exact r3 _ C' hc1 p1 (fun τ hτ => p2 τ (lt_of_lt_of_le (hv.mono (Nat.lt_succ_self t)) hτ)) hits' hp'
      have hcount : ((decide (r.id ∈ ids s) :: out).count true : Int) = out.count true + (if r.id ∈ (ids s).toFinset then 1 else 0) := by
        by_cases hin : r.id ∈ ids s
        · simp [hin]
        · simp only [hin, decide_false]
          rw [List.count_cons_of_ne (by simp)]; simp [hin]
      rw [hcount]
      rw [List.map_cons] at hp
      cases hp with
      | hit hx hsub hp' =>
        have := step _ ((Finset.card_le_card hsub).trans hC) (hsub.trans (Finset.subset_insert _ _)) (fun e => absurd hx e) _ hp'
        rw [if_pos hx] at this
        push_cast
        split at this <;> rename_i e <;> simp only [e, if_true, if_false] <;> omega
      | miss hx hsub hmem hcd hp' =>
        have := step _ hcd hsub (fun _ => hmem) _ hp'
        rw [if_neg hx] at this
        split at this <;> rename_i e <;> simp only [e, if_true, if_false] <;> omega

end Verif.Belady
