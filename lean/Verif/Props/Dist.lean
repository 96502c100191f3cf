import Verif.Proof.Dist
import Verif.Props.LRUStack
/-!
# C30, C31, C32: distances and the LRU profiler

The code stores request times in a table where time 0 is the same as "absent".  Hence the first repetition of the very
first object of the trace is taken for a first access.  The `_partial` theorems say exactly what is computed (the right
answer except at that one request), the `_fails` theorems show the deviation.
-/

namespace Verif.Props
open Verif Verif.Spec Verif.Dist

/-- The full claim C30 for one trace: every entry of the array is the stack distance of that request, `-1` for a first access. -/
def StackDistancesExact (tr : List ObjId) : Prop :=
  getStackDist tr = .ok (atEach (fun pre x => orMinus (stackDistance pre x)) [] tr)

/-- C30, what holds (missing: requests whose object was so far only accessed by request number 0): the array of stack
distances is exact for every request of an object that occurs among the earlier requests other than the very first one. -/
theorem C30_stackDist_partial (tr : List ObjId) (h : tr.length ≤ 2 ^ 31) :
    getStackDist tr = .ok (atEach (fun pre x => if x ∈ pre.tail then orMinus (stackDistance pre x) else -1) [] tr) :=
  stackLoop_spec tr .init [] inv_init (by simpa using h)

theorem atEach_congr {α : Type} {f g : List ObjId → ObjId → α} : ∀ (tr pre : List ObjId),
    (∀ p x q, pre ++ tr = p ++ x :: q → f p x = g p x) → atEach f pre tr = atEach g pre tr
  | [], _, _ => rfl
  | x :: tr, pre, h => by
    rw [atEach, atEach, h pre x tr rfl, atEach_congr tr (pre ++ [x]) (fun p y q e => h p y q (by rw [← e]; simp))]

/-- C30 in full for the traces whose first object is not requested again. -/
theorem C30_stackDist_exact (a : ObjId) (tr : List ObjId) (ha : a ∉ tr) (h : tr.length < 2 ^ 31) :
    StackDistancesExact (a :: tr) := by
  rw [StackDistancesExact, C30_stackDist_partial (a :: tr) (by rw [List.length_cons]; omega)]
  congr 1
  apply atEach_congr
  intro p x q e
  cases p with
  | nil => simp [stackDistance, orMinus]
  | cons b p =>
    simp only [List.nil_append, List.cons_append, List.cons.injEq] at e
    obtain ⟨rfl, e⟩ := e
    have hxa : x ≠ a := by rintro rfl; exact ha (by rw [e]; simp)
    by_cases hx : x ∈ p
    · simp [hx]
    · simp [hx, stackDistance, hxa, orMinus]

/-- C30 does not hold for every trace: the second request of `1, 1` has stack distance 0 and is reported as a first access. -/
theorem C30_stackDist_fails : getStackDist [1, 1] = .ok [-1, -1] ∧ ¬ StackDistancesExact [1, 1] := by
  have h := C30_stackDist_partial [1, 1] (by decide)
  have h1 : getStackDist [1, 1] = .ok [-1, -1] := by rw [h]; decide
  refine ⟨h1, ?_⟩
  rw [StackDistancesExact, h1]; decide

/-- C30, future distances (missing: the entry of request 0): the array entry of request number `i` is the stack distance
that the next request for the same object will have, and `-1` when there is no next request. -/
theorem C30_futureDist_partial (tr : List ObjId) (h : tr.length ≤ 2 ^ 31) :
    ∃ arr, getFutureStackDist tr = .ok arr ∧
      (∀ a x b c, a ≠ [] → tr = a ++ x :: (b ++ x :: c) → x ∉ b → arr a.length = (b.dedup.length : Int)) ∧
      (∀ a x b, tr = a ++ x :: b → x ∉ b → arr a.length = -1) ∧ arr 0 = -1 := by
  obtain ⟨arr, ha, h1, h2⟩ := futureLoop_spec tr .init [] (fun _ => -1) inv_init (by simpa using h)
    ⟨fun pre x suf e => by simp at e, fun i _ => rfl⟩
  simp only [List.nil_append] at h1 h2
  refine ⟨arr, ha, ?_, ?_, ?_⟩
  · intro a x b c hne he hxb
    have hsl : sinceLast x (a ++ x :: b) = b := by
      clear he
      induction b using List.reverseRecOn with
      | nil => exact sinceLast_concat_self
      | append_singleton b z ih =>
        have hz : z ≠ x := by rintro rfl; simp at hxb
        rw [show a ++ x :: (b ++ [z]) = (a ++ x :: b) ++ [z] by simp, sinceLast_concat_ne hz,
          ih (fun e => hxb (by simp [e]))]
    have := h1 (a ++ x :: b) x c (by rw [he]; simp) (by cases a with | nil => exact absurd rfl hne | cons y a => simp)
    rw [hsl] at this
    rw [← this]
    congr 1
    simp [lastPos, hsl]
  · intro a x b he hxb
    apply h2
    intro pre y suf e hy hp
    have hy' := (mem_tail_iff.1 hy).1
    have e1 := at_lastPos hy'
    have hl := lastPos_lt hy'
    have e2 : tr[a.length]? = some x := by rw [he]; simp
    rw [e, ← hp, List.getElem?_append_left hl, e1] at e2
    have hyx : y = x := by simpa using e2
    subst hyx
    have hlen : a.length < pre.length := by omega
    have hd : tr.drop (a.length + 1) = b := by rw [he]; simp
    apply hxb
    rw [← hd, e, List.drop_append_of_le_length (by omega)]
    simp
  · apply h2
    intro pre x suf _ hx h0
    exact (mem_tail_iff.1 hx).2 h0

/-- the full claim fails for the entry of request 0: in `1, 2, 1` it should be 1 -/
theorem C30_futureDist_fails : ∃ arr, getFutureStackDist [1, 2, 1] = .ok arr ∧ arr 0 = -1 ∧ stackDistance [1, 2] 1 = some 1 := by
  obtain ⟨arr, h, _, _, h0⟩ := C30_futureDist_partial [1, 2, 1] (by decide)
  exact ⟨arr, h, h0, by decide⟩

example : getStackDist [9, 1, 2, 3, 2, 2, 1, 3] = .ok [-1, -1, -1, -1, 1, 0, 2, 2] := by
  rw [C30_stackDist_partial _ (by decide)]; decide
example : (9 : ObjId) ∉ [1, 2, 3, 2, 2, 1, 3] ∧ ([9, 1] : List ObjId) ≠ [] ∧
    ([9, 1, 2, 3, 2, 2, 1, 3] : List ObjId) = [9] ++ 1 :: ([2, 3, 2, 2] ++ 1 :: [3]) ∧ 1 ∉ ([2, 3, 2, 2] : List ObjId) := by decide

/-! ## C31 -/

/-- How many requests of the trace `tr` (all of size 1, no per-object metadata) hit in an LRU cache of size `k`. -/
def LruHits (k : Nat) (tr : List ObjId) (n : Nat) : Prop :=
  ∃ out s, Reaches LRU.algo (LRU.init k 0 .none) (tr.map (fun x => .get ⟨x, 1, -2⟩)) out s ∧ out.count true = n

theorem lruHits_eq (k : Nat) (tr : List ObjId) : LruHits k tr ((hitsByDistance k [] tr).count true) := by
  obtain ⟨s, h, _⟩ := C12_stack_LRU k 0 1 (tr.map (fun x => (⟨x, 1, -2⟩ : Req))) (by omega) (by decide)
    (fun r hr => by obtain ⟨x, _, rfl⟩ := List.mem_map.1 hr; rfl)
  simp only [List.map_map, Nat.add_zero, Nat.div_one] at h
  have e : (fun r : Req => r.id) ∘ (fun x => (⟨x, 1, -2⟩ : Req)) = id := rfl
  rw [e, List.map_id] at h
  exact ⟨_, s, h, rfl⟩

/-- The full claim C31 for one trace: entry `k` of the profiler's array is the number of hits of an LRU cache of size `k`. -/
def ProfilerExact (size : Nat) (tr : List ObjId) : Prop :=
  ∃ arr, lruHitCnt size tr = .ok arr ∧ ∀ k ≤ size, LruHits k tr (arr k)

/-- C31, what holds (missing: the first repetition of the trace's first object): entry `k` of the profiler's hit array
plus one for that repetition, if it is a hit, is the number of hits of a simulated LRU cache of size `k`. -/
theorem C31_profiler_partial (size : Nat) (tr : List ObjId) :
    ∃ arr, lruHitCnt size tr = .ok arr ∧ ∀ k ≤ size, LruHits k tr (arr k + firstRepeatWithin k tr) := by
  obtain ⟨arr, h, hc⟩ := lruHitCnt_spec size tr
  refine ⟨arr, h, fun k hk => ?_⟩
  rw [hc k hk, hits_all]
  exact lruHits_eq k tr

/-- C31 in full for the traces whose first object is not requested again. -/
theorem C31_profiler_exact (size : Nat) (a : ObjId) (tr : List ObjId) (ha : a ∉ tr) : ProfilerExact size (a :: tr) := by
  obtain ⟨arr, h, hc⟩ := C31_profiler_partial size (a :: tr)
  refine ⟨arr, h, fun k hk => ?_⟩
  have := hc k hk
  rwa [firstRepeatWithin, if_neg (fun h => ha h.1), Nat.add_zero] at this

theorem LruHits.unique {k tr n m} (h : LruHits k tr n) (h' : LruHits k tr m) : n = m := by
  obtain ⟨o, s, h1, rfl⟩ := h
  obtain ⟨o', s', h1', rfl⟩ := h'
  unfold Reaches at h1 h1'
  rw [h1] at h1'; cases h1'; rfl

/-- C31 does not hold for every trace: for `1, 1` a cache of size 1 has one hit, the profiler counts none. -/
theorem C31_profiler_fails : ¬ ProfilerExact 1 [1, 1] := by
  rintro ⟨arr, h, hc⟩
  obtain ⟨arr', h', hc'⟩ := C31_profiler_partial 1 [1, 1]
  rw [h] at h'; cases h'
  have h1 := (hc 1 (by decide)).unique (hc' 1 (by decide))
  have : firstRepeatWithin 1 [1, 1] = 1 := by decide
  omega

/-- C31, misses (same exception): hits and misses of every size add up to the number of requests. -/
theorem C31_misses_partial (size : Nat) (tr : List ObjId) (h : tr.length < 2 ^ 64) :
    ∃ hit miss, lruHitCnt size tr = .ok hit ∧ lruMissCnt size tr = .ok miss ∧ ∀ k ≤ size, hit k + miss k = tr.length := by
  obtain ⟨arr, ha, hc⟩ := lruHitCnt_spec size tr
  refine ⟨arr, _, ha, by rw [lruMissCnt, ha]; rfl, ?_⟩
  intro k hk
  have hlen : ∀ (tr pre : List ObjId), (atEach reported pre tr).length = tr.length := by
    intro tr
    induction tr with
    | nil => intro pre; rfl
    | cons x tr ih => intro pre; simp [atEach, ih]
  have hle : arr k ≤ tr.length := by
    rw [hc k hk, ← hlen tr []]; exact List.countP_le_length
  have e : (tr.length + 2 ^ 64 - arr k) % 2 ^ 64 = tr.length - arr k := by omega
  simp only [if_pos hk, e]
  omega

/-- a trace with hits at different sizes -/
example : (hitsByDistance 1 [] [9, 1, 2, 1, 1, 2]).count true = 1 ∧ (hitsByDistance 2 [] [9, 1, 2, 1, 1, 2]).count true = 3 ∧
    (9 : ObjId) ∉ [1, 2, 1, 1, 2] := by decide

/-! ## C32 -/

/-- The full claim C32: every entry is the number of requests since the object's last access, `-1` for a first access. -/
def AccessAgesExact (tr : List ObjId) : Prop :=
  getAccessDist .sinceLastAccess tr = .ok (atEach (fun pre x => orMinus (accessAge pre x)) [] tr)

/-- C32, what holds (missing: requests whose object was so far only accessed by request 0). -/
theorem C32_sinceLast_partial (tr : List ObjId) (h : tr.length ≤ 2 ^ 31) :
    getAccessDist .sinceLastAccess tr = .ok (atEach (fun pre x => if x ∈ pre.tail then orMinus (accessAge pre x) else -1) [] tr) :=
  accessLoop_last tr _ [] (fun y => rfl) (by simpa using h)

/-- C32 in full for the traces whose first object is not requested again. -/
theorem C32_sinceLast_exact (a : ObjId) (tr : List ObjId) (ha : a ∉ tr) (h : tr.length < 2 ^ 31) :
    AccessAgesExact (a :: tr) := by
  rw [AccessAgesExact, C32_sinceLast_partial (a :: tr) (by rw [List.length_cons]; omega)]
  congr 1
  apply atEach_congr
  intro p x q e
  cases p with
  | nil => simp [accessAge, orMinus]
  | cons b p =>
    simp only [List.nil_append, List.cons_append, List.cons.injEq] at e
    obtain ⟨rfl, e⟩ := e
    have hxa : x ≠ a := by rintro rfl; exact ha (by rw [e]; simp)
    by_cases hx : x ∈ p
    · simp [hx]
    · simp [hx, accessAge, hxa, orMinus]

/-- C32 does not hold for every trace: in `1, 1` the second request is reported as a first access. -/
theorem C32_sinceLast_fails : getAccessDist .sinceLastAccess [1, 1] = .ok [-1, -1] ∧ ¬ AccessAgesExact [1, 1] := by
  have h := C32_sinceLast_partial [1, 1] (by decide)
  have h1 : getAccessDist .sinceLastAccess [1, 1] = .ok [-1, -1] := by rw [h]; decide
  refine ⟨h1, ?_⟩
  rw [AccessAgesExact, h1]; decide

/-- C32, distance to the first access: never computed; the table is never written and every entry is `-1`. -/
theorem C32_sinceFirst_fails (tr : List ObjId) :
    getAccessDist .sinceFirstAccess tr = .ok (List.replicate tr.length (-1)) ∧
    (∃ tr', atEach (fun pre x => orMinus (ageSinceFirst pre x)) [] tr' ≠ List.replicate tr'.length (-1)) :=
  ⟨accessLoop_first tr 0, [5, 1, 2, 1], by decide⟩

example : getAccessDist .sinceLastAccess [9, 1, 2, 3, 2, 2, 1, 3] = .ok [-1, -1, -1, -1, 2, 1, 5, 4] := by
  rw [C32_sinceLast_partial _ (by decide)]; decide

end Verif.Props
