import Verif.Proof.TTLFIFO
/-!
# C113: TTL_FIFO
-/

namespace Verif.Props
open Verif Verif.Spec.Expiry Verif.TTLFIFO
set_option maxRecDepth 20000

theorem horizon_each {M : Nat} {rs : List TReq} (h : Horizon M rs) : ∃ T0, ∀ r ∈ rs, T0 ≤ r.time ∧ r.time + r.ttl < T0 + M := by
  cases rs with
  | nil => exact ⟨0, fun r hr => by cases hr⟩
  | cons a rs =>
    refine ⟨a.time, fun r hr => ⟨?_, h.2 a rfl r hr⟩⟩
    rcases List.mem_cons.1 hr with rfl | hr'
    · exact Nat.le_refl _
    · exact (List.pairwise_cons.1 h.1).1 r hr'

theorem reached {M cs : Nat} {rs : List TReq} (h : Horizon M rs) : ∃ s T0 now, TTLFIFO.run M cs {} rs = .ok ((serveAll cs [] rs).1, s) ∧ Inv M T0 now s (serveAll cs [] rs).2 ∧ total (serveAll cs [] rs).2 ≤ cs := by
  obtain ⟨T0, hT⟩ := horizon_each h
  obtain ⟨s, now, h1, h2, h3⟩ := run_ok (cs := cs) rs 0 {} [] (init_inv M T0) (Nat.le_refl _) (Nat.zero_le _) (fun r hr => ⟨Nat.zero_le _, hT r hr⟩) h.1
  exact ⟨s, T0, now, h1, h2, h3⟩

theorem table_iff {M T0 now : Nat} {s : State} {l : List TObj} (h : Inv M T0 now s l) (o : TObj) : s.table o.id = some o ↔ o ∈ l := by
  rw [h.core.table]
  exact ⟨List.mem_of_find?_eq_some, find_mem h.core.nodup⟩

/-- C113: over requests in the order of time, none of which expires 60 days or more after the first, a request hits exactly if the object is cached and has not expired; expired objects are renewed; the object that expires
first is evicted, the first come among several; and the cache is never over its size. Missing: objects that live longer (`C113_sixtyDays_fails_TTLFIFO`, `C113_removeLater_fails_TTLFIFO`). -/
theorem C113_expiry_TTLFIFO_partial (cs : Nat) (rs : List TReq) (h : Horizon maxTtl rs) :
    ∃ s, TTLFIFO.run maxTtl cs {} rs = .ok ((serveAll cs [] rs).1, s) ∧ (∀ o, s.table o.id = some o ↔ o ∈ (serveAll cs [] rs).2) ∧
      s.used = total (serveAll cs [] rs).2 ∧ s.used ≤ cs := by
  obtain ⟨s, T0, now, h1, h2, h3⟩ := reached (cs := cs) h
  exact ⟨s, h1, table_iff h2, h2.used, by rw [h2.used]; exact h3⟩

/-- C113: removing a cached object removes it and nothing else. -/
theorem C113_remove_TTLFIFO_partial (cs : Nat) (rs : List TReq) (h : Horizon maxTtl rs) (out : List Bool) (s : State) (hr : TTLFIFO.run maxTtl cs {} rs = .ok (out, s)) (o : TObj) (ho : s.table o.id = some o) :
    ∃ s', TTLFIFO.remove maxTtl s o.id = .ok s' ∧ s'.used + o.size = s.used ∧ ∀ p, s'.table p.id = some p ↔ (s.table p.id = some p ∧ p.id ≠ o.id) := by
  obtain ⟨s1, T0, now, h1, h2, _⟩ := reached (cs := cs) h
  rw [hr] at h1
  cases h1
  have hol := (table_iff h2 o).1 ho
  obtain ⟨s', a1, a2⟩ := remove_ok h2 hol
  refine ⟨s', a1, ?_, ?_⟩
  · rw [a2.used, h2.used]
    exact total_without h2.core.nodup hol
  · intro p
    rw [table_iff a2, table_iff h2, List.mem_filter]
    simp

theorem fit_sub (cs : Nat) : ∀ (n : Nat) (l : List TObj), ∀ o ∈ fit cs n l, o ∈ l
  | 0, l, o, ho => ho
  | n + 1, l, o, ho => by
    unfold fit at ho
    split at ho
    · exact ho
    · split at ho
      · exact (List.mem_filter.1 (fit_sub cs n _ o ho)).1
      · exact ho

theorem serve_origin {cs : Nat} {l : List TObj} {r : TReq} {o : TObj} (ho : o ∈ serve cs l r) : o ∈ l ∨ (o.id = r.id ∧ o.exp = r.time + r.ttl) := by
  unfold serve at ho
  split at ho
  · exact .inl ho
  · split at ho
    · rcases List.mem_append.1 ho with h | h
      · exact .inl (List.mem_filter.1 h).1
      · obtain ⟨p, hp, rfl⟩ := List.mem_map.1 h
        exact .inr ⟨by simpa using (List.mem_filter.1 hp).2, rfl⟩
    · split at ho
      · rcases List.mem_append.1 (fit_sub _ _ _ o ho) with h | h
        · exact .inl h
        · rw [List.mem_singleton] at h
          subst h
          exact .inr ⟨rfl, rfl⟩
      · exact .inl ho

theorem serveAll_origin {cs : Nat} : ∀ (rs : List TReq) (hist : List TReq) (l : List TObj), (∀ o ∈ l, ∃ q ∈ hist, q.id = o.id ∧ o.exp = q.time + q.ttl) →
    ∀ (i : Nat) (r : TReq), rs[i]? = some r → (serveAll cs l rs).1[i]? = some true → ∃ q, q ∈ hist ++ rs.take i ∧ q.id = r.id ∧ r.time ≤ q.time + q.ttl
  | [], hist, l, _, i, r, hr, _ => by simp at hr
  | a :: rs, hist, l, hl, 0, r, hr, ht => by
    simp only [List.getElem?_cons_zero, Option.some.injEq] at hr
    subst hr
    unfold serveAll at ht
    simp only [List.getElem?_cons_zero, Option.some.injEq, decide_eq_true_eq] at ht
    obtain ⟨o, ho, e, hle⟩ := ht
    obtain ⟨q, hq, e1, e2⟩ := hl o ho
    exact ⟨q, List.mem_append_left _ hq, e1.trans e, e2 ▸ hle⟩
  | a :: rs, hist, l, hl, i + 1, r, hr, ht => by
    simp only [List.getElem?_cons_succ] at hr
    unfold serveAll at ht
    simp only [List.getElem?_cons_succ] at ht
    obtain ⟨q, hq, e⟩ := serveAll_origin rs (hist ++ [a]) (serve cs l a) (by
      intro o ho
      rcases serve_origin ho with h | ⟨h1, h2⟩
      · obtain ⟨q, hq, e⟩ := hl o h
        exact ⟨q, List.mem_append_left _ hq, e⟩
      · exact ⟨a, by simp, h1.symm, h2⟩) i r hr ht
    refine ⟨q, ?_, e⟩
    rw [List.take_succ_cons]
    rw [List.append_assoc] at hq
    exact hq

/-- C113: nothing is served after it expired: a request that hits follows a request for the same object whose time to live has not passed. -/
theorem C113_neverStale_TTLFIFO_partial (cs : Nat) (rs : List TReq) (h : Horizon maxTtl rs) (out : List Bool) (s : State) (hr : TTLFIFO.run maxTtl cs {} rs = .ok (out, s)) (i : Nat) (r : TReq)
    (hi : rs[i]? = some r) (ht : out[i]? = some true) : ∃ q ∈ rs.take i, q.id = r.id ∧ r.time ≤ q.time + q.ttl := by
  obtain ⟨s1, T0, now, h1, _, _⟩ := reached (cs := cs) h
  rw [hr] at h1
  cases h1
  obtain ⟨q, hq, e⟩ := serveAll_origin rs [] [] (fun o ho => by cases ho) i r hi ht
  exact ⟨q, by simpa using hq, e⟩

/-- three objects in a cache of 10 bytes: the second expires first and is evicted for the third, the first is renewed when it has expired -/
def expiryDemo : List TReq := [⟨1, 4, 100, 50⟩, ⟨2, 5, 101, 20⟩, ⟨1, 4, 110, 50⟩, ⟨3, 6, 111, 60⟩, ⟨2, 5, 112, 20⟩, ⟨1, 4, 160, 50⟩, ⟨1, 4, 170, 5⟩]

example : Horizon maxTtl expiryDemo ∧ serveAll 10 [] expiryDemo = ([false, false, true, false, false, false, true], [⟨3, 6, 171⟩, ⟨1, 4, 210⟩]) := by
  refine ⟨⟨by unfold expiryDemo; decide, ?_⟩, by decide⟩
  intro a ha r hr
  cases ha
  revert r hr
  decide

/-- C113 fails for an object that expires exactly 60 days after the first request: it is put into a queue beyond the end of the array. -/
theorem C113_sixtyDays_fails_TTLFIFO : (TTLFIFO.run maxTtl 10 {} [⟨1, 1, 0, 5184000⟩]).map Prod.fst = .error .outOfBounds := by decide +kernel

/-- C113 fails for removing an object that expires later than that: it was put into the last queue, but is looked for beyond the end of the array. -/
theorem C113_removeLater_fails_TTLFIFO : (TTLFIFO.run maxTtl 10 {} [⟨1, 1, 0, 5184001⟩]).map Prod.fst = .ok [false] ∧
    (TTLFIFO.run maxTtl 10 {} [⟨1, 1, 0, 5184001⟩] >>= fun p => TTLFIFO.remove maxTtl p.2 1).map State.used = .error .outOfBounds := by decide +kernel

end Verif.Props
