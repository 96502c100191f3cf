import Verif.Proof.LRUv0
/-!
# C115: LRUv0
-/

namespace Verif.Props
open Verif Verif.Spec.Recency Verif.LRUv0
set_option maxRecDepth 20000

theorem lruv0_init (md : Nat) : Rep md {} [] := ⟨rfl, fun p hp => (by cases hp), fun p hp => (by cases hp), fun id a h => (by cases h), fun p hp => (by cases hp), List.nodup_nil, rfl⟩

/-- C115 as long as everything requested fits: a request hits exactly if its object was requested before, the bytes are those of the objects, and the next victim is the least recently requested object.
Missing: ids that are not addresses the program may read (`C115_firstRequest_fails_LRUv0`); more than one eviction (`C115_secondEviction_fails_LRUv0`); the number of objects (`C115_count_fails_LRUv0`). -/
theorem C115_fits_LRUv0_partial (mem : Nat → Bool) (md cs : Nat) (rs : List Req) (hm : ∀ r ∈ rs, mem r.id = true) (hk : ∀ k, bytes md (order (rs.take k)) ≤ cs) :
    ∃ s, LRUv0.run mem md cs {} rs = .ok (seen rs [], s) ∧ s.occ = (bytes md (order rs) : Nat) ∧ s.list.head?.bind s.data = (order rs).head? ∧
      ∀ r, mem r.id = true → (LRUv0.find mem s r false).map Prod.fst = .ok (decide (∃ o ∈ order rs, o.id = r.id)) := by
  obtain ⟨s, l, e, h, h2⟩ := LRUv0.run_ok (mem := mem) (md := md) (cs := cs) rs {} [] [] (lruv0_init md) (fun id => by simp) hm hk
  change l.map Prod.snd = order rs at h2
  refine ⟨s, e, by rw [h.occ, h2], ?_, ?_⟩
  · rw [← h2, h.list]
    cases l with
    | nil => rfl
    | cons p l => exact h.data p (List.mem_cons_self ..)
  · intro r hr
    unfold LRUv0.find LRUv0.hash
    rw [if_pos hr]
    show Except.map Prod.fst (match s.table r.id with | none => _ | some a => _) = _
    cases ht : s.table r.id with
    | none =>
      show Except.ok false = _
      congr 1
      rw [eq_comm, decide_eq_false_iff_not, ← h2]
      rintro ⟨o, ho, e⟩
      obtain ⟨q, hq, rfl⟩ := List.mem_map.1 ho
      exact h.none ht q hq e
    | some a =>
      show Except.ok true = _
      congr 1
      rw [eq_comm, decide_eq_true_eq, ← h2]
      obtain ⟨p, hp, _, e⟩ := h.back _ _ ht
      exact ⟨p.2, List.mem_map_of_mem hp, e⟩

/-- C115 for the first eviction: if a request does not fit, but fits without the least recently requested object, just that object is evicted. Missing: as above. -/
theorem C115_firstEviction_LRUv0_partial (mem : Nat → Bool) (md cs : Nat) (rs : List Req) (r : Req) (hm : ∀ x ∈ rs ++ [r], mem x.id = true) (hk : ∀ k, bytes md (order (rs.take k)) ≤ cs) (hr : r.size ≤ cs)
    (hbig : cs < bytes md (order (rs ++ [r]))) (hone : bytes md (order (rs ++ [r])).tail ≤ cs) (s : LRUv0.State) (out : List Bool) (hs : LRUv0.run mem md cs {} rs = .ok (out, s)) :
    ∃ s', LRUv0.get mem md cs s r = .ok (decide (∃ o ∈ order rs, o.id = r.id), s') ∧ s'.occ = (bytes md (order (rs ++ [r])).tail : Nat) ∧
      ∀ q, mem q.id = true → (LRUv0.find mem s' q false).map Prod.fst = .ok (decide (∃ o ∈ (order (rs ++ [r])).tail, o.id = q.id)) := by
  obtain ⟨s0, l, e, h, h2⟩ := LRUv0.run_ok (mem := mem) (md := md) (cs := cs) rs {} [] [] (lruv0_init md) (fun id => by simp) (fun x hx => hm x (List.mem_append_left _ hx)) hk
  rw [hs] at e
  cases e
  change l.map Prod.snd = order rs at h2
  obtain ⟨s1, l1, h3, h4, h5⟩ := admitted (mem := mem) (cs := cs) h (hm r (by simp)) hr
  have h6 : l1.map Prod.snd = order (rs ++ [r]) := by
    rw [h4, h2]; unfold order; rw [List.foldl_append]; rfl
  have hmo := order_mem (mem := mem) (rs ++ [r]) [] hm (fun o ho => by cases ho)
  change ∀ o ∈ order (rs ++ [r]), _ at hmo
  rw [← h6] at hbig hone hmo ⊢
  rw [← h2]
  cases l1 with
  | nil => exact absurd hbig (by unfold bytes; simp)
  | cons p l1 =>
    obtain ⟨s2, g1, g2, g3⟩ := evict_first h3 (hmo p.2 (by simp))
    refine ⟨s2, ?_, g2, ?_⟩
    · rw [h5]
      have hsh : shrink mem md cs (s1.list.length + 1) s1 = .ok s2 := by
        have hlen : s1.list.length = l1.length + 1 := by rw [h3.list]; simp
        rw [hlen]
        unfold shrink
        rw [if_pos (by rw [h3.occ]; omega), g1]
        show shrink mem md cs (l1.length + 1) s2 = _
        unfold shrink
        rw [if_neg]
        rw [g2]
        simp only [List.map_cons, List.tail_cons] at hone
        omega
      rw [hsh]
      rfl
    · intro q hq
      unfold LRUv0.find LRUv0.hash
      rw [if_pos hq]
      show Except.map Prod.fst (match s2.table q.id with | none => _ | some a => _) = _
      have g := g3 q.id
      simp only [List.map_cons, List.tail_cons]
      cases ht : s2.table q.id with
      | none =>
        show Except.ok false = _
        congr 1
        rw [eq_comm, decide_eq_false_iff_not, ← g, ht]
        simp
      | some a =>
        show Except.ok true = _
        congr 1
        rw [eq_comm, decide_eq_true_eq, ← g, ht]
        simp

/-- six requests, one of them with another size -/
def v0Demo : List Req := [⟨8, 3, -2⟩, ⟨16, 4, -2⟩, ⟨8, 3, -2⟩, ⟨24, 2, -2⟩, ⟨16, 1, -2⟩, ⟨24, 2, -2⟩]

example : (∀ r ∈ v0Demo, decide (r.id % 8 = 0) = true) ∧ (∀ k, bytes 0 (order (v0Demo.take k)) ≤ 9) ∧ order v0Demo = [⟨8, 3⟩, ⟨16, 1⟩, ⟨24, 2⟩] ∧ seen v0Demo [] = [false, false, true, false, true, true] := by
  refine ⟨by decide, fun k => ?_, by decide, by decide⟩
  by_cases h : k ≤ 6
  · revert k
    decide
  · rw [List.take_of_length_le (by show 6 ≤ k; omega)]
    decide

/-- then an object of 4 bytes in a cache of 9: the least recently requested one makes room -/
example : 9 < bytes 0 (order (v0Demo ++ [⟨32, 4, -2⟩])) ∧ bytes 0 (order (v0Demo ++ [⟨32, 4, -2⟩])).tail ≤ 9 ∧ (order (v0Demo ++ [⟨32, 4, -2⟩])).tail = [⟨16, 1⟩, ⟨24, 2⟩, ⟨32, 4⟩] := by decide

/-- C115 fails for the first request of any trace whose first id is not an address the program may read: the hash function reads what the id points to. -/
theorem C115_firstRequest_fails_LRUv0 (mem : Nat → Bool) (md cs : Nat) (r : Req) (rs : List Req) (h : mem r.id = false) : LRUv0.run mem md cs {} (r :: rs) = .error .outOfBounds := by
  unfold LRUv0.run LRUv0.get LRUv0.find LRUv0.hash
  rw [h]
  rfl

/-- C115 fails for the second eviction, whatever the requests before, between and after: the evicted object is freed but stays at the head of the queue, and the next eviction uses it. -/
theorem C115_secondEviction_fails_LRUv0 (mem : Nat → Bool) (md cs : Nat) (rs rs' : List Req) (out out' : List Bool) (s s1 s2 : LRUv0.State) (h : LRUv0.run mem md cs {} rs = .ok (out, s))
    (h1 : LRUv0.evict mem md s = .ok s1) (h2 : LRUv0.run mem md cs s1 rs' = .ok (out', s2)) : LRUv0.evict mem md s2 = .error .useAfterFree := by
  rcases (run_keep rs {} s out h).2 (.inr ⟨fun id a h => (by cases h), fun a h => (by cases h)⟩) with hd | hl
  · rw [dead_evict hd] at h1; cases h1
  · exact dead_evict ((run_keep rs' s1 s2 out' h2).1 (live_evict hl h1))

/-- three objects of one byte and a cache of one byte: the third request uses the freed first object -/
example : (LRUv0.run (fun _ => true) 0 1 {} [⟨8, 1, -2⟩, ⟨16, 1, -2⟩]).map Prod.fst = .ok [false, false] ∧
    (LRUv0.run (fun _ => true) 0 1 {} [⟨8, 1, -2⟩, ⟨16, 1, -2⟩, ⟨24, 1, -2⟩]).map Prod.fst = .error .useAfterFree := by decide

/-- a case that meets the hypotheses -/
example : ((LRUv0.run (fun _ => true) 0 9 {} v0Demo >>= fun p => LRUv0.evict (fun _ => true) 0 p.2) >>= fun s1 => LRUv0.run (fun _ => true) 0 9 s1 [⟨8, 3, -2⟩, ⟨24, 2, -2⟩]).map Prod.fst = .ok [false, true] := by decide

/-- C115 fails for the number of objects: it is not counted up, but counted down when an object is removed. -/
theorem C115_count_fails_LRUv0 : (LRUv0.run (fun _ => true) 0 9 {} v0Demo).map (fun p => p.2.nObj) = .ok 0 ∧
    ((LRUv0.run (fun _ => true) 0 9 {} v0Demo) >>= fun p => LRUv0.remove (fun _ => true) 0 p.2 8).map (fun q => (q.1, q.2.nObj)) = .ok (true, -1) := by decide

end Verif.Props
