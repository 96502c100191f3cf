import Verif.Proof.S3FIFO
import Verif.Props.Demo
/-!
# Properties of S3FIFO (libCacheSim/cache/eviction/S3FIFO.c)

The statements are those of `Verif/Spec/Cache.lean` and `Verif/Spec/History.lean`.  They hold for every cache size `cs`, every size `fs ≤ cs` of
the small queue, every size `gs` of the ghost queue (0: no ghost queue), every move-to-main threshold and every sequence of client calls,
where not stated otherwise.  S3FIFO keeps no metadata bytes and never asks the admission policy (S3FIFO.c:478-482).
-/

namespace Verif.Props
open Verif Verif.Spec
set_option linter.unusedVariables false
set_option maxRecDepth 20000

/-- what S3FIFO has cached: the objects of the small and of the main queue -/
abbrev S3FIFO_cached (s : S3FIFO.State) : Contents := S3FIFO.cached s

/-- the ids in the small queue, the main queue and the ghost queue -/
def S3FIFO_small (s : S3FIFO.State) : List ObjId := s.fifo.objs.map (·.id)
def S3FIFO_main (s : S3FIFO.State) : List ObjId := s.main.objs.map (·.id)
def S3FIFO_ghost (s : S3FIFO.State) : List ObjId := ghostIds s.ghost

/-- a demo run: hits in both queues, ghost hits, evictions from both queues, removals, an insertion, too large objects -/
def S3FIFO_ops : List Op := [.get ⟨1, 3, -2⟩, .get ⟨2, 3, -2⟩, .get ⟨1, 3, -2⟩, .get ⟨3, 3, -2⟩, .get ⟨4, 2, -2⟩, .find ⟨3, 3, -2⟩ false,
  .find ⟨1, 3, -2⟩ true, .get ⟨7, 30, -2⟩, .get ⟨2, 3, -2⟩, .remove 4, .remove 9, .get ⟨1, 3, -2⟩, .get ⟨5, 1, -2⟩,
  .get ⟨6, 1, -2⟩, .get ⟨6, 1, -2⟩, .evict ⟨0, 0, -2⟩, .insert ⟨8, 1, -2⟩, .get ⟨9, 4, -2⟩, .get ⟨3, 3, -2⟩, .get ⟨5, 1, -2⟩, .get ⟨10, 2, -2⟩]

def S3FIFO_demo : S3FIFO.State :=
  match S3FIFO.algo.run (S3FIFO.init 10 4 9 1) S3FIFO_ops with
  | .ok p => p.2
  | .error _ => S3FIFO.init 10 4 9 1

theorem S3FIFO_demo_reached : Reaches S3FIFO.algo (S3FIFO.init 10 4 9 1) S3FIFO_ops
    [false, false, true, false, false, true, true, false, false, true, false, true, false, false, true, true, true, false, false, false, false]
    S3FIFO_demo ∧ S3FIFO_small S3FIFO_demo = [10] ∧ S3FIFO_main S3FIFO_demo = [5, 3, 1, 6] ∧ S3FIFO_ghost S3FIFO_demo = [8] :=
  ⟨rfl, by decide, by decide, by decide⟩

theorem C01_capacity_S3FIFO (cs fs gs thr : Nat) (h : fs ≤ cs) :
    Capacity S3FIFO.algo (S3FIFO.init cs fs gs thr) (Calls {} (fun _ => True)) cs :=
  (S3FIFO.medium gs thr {}).capacity (S3FIFO.inv_init gs thr _ h)

example : S3FIFO.algo.occ S3FIFO_demo = 10 := by decide

theorem C02_accounting_S3FIFO (cs fs gs thr : Nat) (h : fs ≤ cs) :
    Accounting S3FIFO.algo S3FIFO_cached (S3FIFO.init cs fs gs thr) (Calls {} (fun _ => True)) 0 :=
  (S3FIFO.medium gs thr {}).accounting (S3FIFO.inv_init gs thr _ h)

example : S3FIFO.algo.nObj S3FIFO_demo = 5 := by decide

theorem C03_hitIffCached_S3FIFO (cs fs gs thr : Nat) (h : fs ≤ cs) :
    HitIffCached S3FIFO.algo S3FIFO_cached (S3FIFO.init cs fs gs thr) (Calls {} (fun _ => True)) :=
  (S3FIFO.medium gs thr {}).hitIffCached (S3FIFO.inv_init gs thr _ h)

/-- The call sequence of the failures below: object 1 leaves the small queue for the ghost queue, the client inserts it again (`insert` does not
look at the ghost queue), it is hit and moves to the main queue; its ghost entry is still there. -/
def S3FIFO_stale : List Op := [.get ⟨1, 3, -2⟩, .get ⟨2, 3, -2⟩, .get ⟨3, 3, -2⟩, .get ⟨4, 3, -2⟩, .evict ⟨0, 0, -2⟩, .insert ⟨1, 3, -2⟩,
  .get ⟨1, 3, -2⟩, .evict ⟨0, 0, -2⟩, .evict ⟨0, 0, -2⟩, .evict ⟨0, 0, -2⟩]

def S3FIFO_staleEnd : S3FIFO.State :=
  match S3FIFO.algo.run (S3FIFO.init 10 4 20 1) S3FIFO_stale with
  | .ok p => p.2
  | .error _ => S3FIFO.init 10 4 20 1

theorem S3FIFO_stale_reached : Reaches S3FIFO.algo (S3FIFO.init 10 4 20 1) S3FIFO_stale
    [false, false, false, false, true, true, true, true, true, true] S3FIFO_staleEnd ∧ S3FIFO_main S3FIFO_staleEnd = [1] ∧
    1 ∈ S3FIFO_ghost S3FIFO_staleEnd := ⟨rfl, by decide, by decide⟩

theorem S3FIFO_stale_calls : ∀ op ∈ S3FIFO_stale, Calls {} (fun _ => True) op := by
  intro op hop
  simp only [S3FIFO_stale, List.mem_cons, List.not_mem_nil, or_false] at hop
  rcases hop with rfl | rfl | rfl | rfl | rfl | rfl | rfl | rfl | rfl | rfl <;> simp [Calls]

/-- What is proved of C04: without client inserts. -/
theorem C04_noPhantom_S3FIFO_partial (cs fs gs thr : Nat) (h : fs ≤ cs) :
    NoPhantom S3FIFO.algo S3FIFO_cached (S3FIFO.init cs fs gs thr) (Calls { ins := false } (fun _ => True)) := by
  refine (S3FIFO.medium gs thr { ins := false }).noPhantom (S3FIFO.inv_init gs thr _ h) rfl ?_
  intro _ s s' b id hi he
  obtain ⟨s'', k1, _, k3, _⟩ := S3FIFO.remove_spec hi rfl id
  rw [show S3FIFO.algo.remove s id = S3FIFO.remove s id from rfl, k1] at he
  cases he
  rw [k3]
  simp

/-- C04 fails in general: with a client insert an object can stay cached after `remove`, which answers `true`. -/
theorem C04_noPhantom_fails_S3FIFO :
    ¬ NoPhantom S3FIFO.algo S3FIFO_cached (S3FIFO.init 10 4 20 1) (Calls {} (fun _ => True)) := by
  intro hn
  have hr : Reaches S3FIFO.algo (S3FIFO.init 10 4 20 1) (S3FIFO_stale ++ [.remove 1])
      [false, false, false, false, true, true, true, true, true, true, true]
      (match S3FIFO.algo.run (S3FIFO.init 10 4 20 1) (S3FIFO_stale ++ [.remove 1]) with | .ok p => p.2 | .error _ => S3FIFO.init 10 4 20 1) := rfl
  obtain ⟨pre, op, post, r, h1, h2, h3, h4, h5⟩ := (hn _ _ _ (by
    intro op hop
    rcases List.mem_append.1 hop with h | h
    · exact S3FIFO_stale_calls op h
    · rw [List.mem_singleton.1 h]; rfl) hr).2 (1, 3) (by decide)
  rcases List.eq_nil_or_concat post with rfl | ⟨post', x, rfl⟩
  · rw [show pre ++ [op] = pre ++ [op] from rfl] at h1
    have := (List.append_inj' h1 rfl).2
    simp only [List.cons.injEq, and_true] at this
    rw [← this] at h2
    simp [insertedBy] at h2
  · have h1' : S3FIFO_stale ++ [Op.remove 1] = (pre ++ op :: post') ++ [x] := by rw [h1]; simp
    have := (List.append_inj' h1' rfl).2
    simp only [List.cons.injEq, and_true] at this
    apply h5
    rw [← this]
    simp

theorem C04_addsOnlyRequested_S3FIFO (cs fs gs thr : Nat) (h : fs ≤ cs) :
    AddsOnlyRequested S3FIFO.algo S3FIFO_cached (S3FIFO.init cs fs gs thr) (Calls {} (fun _ => True)) :=
  (S3FIFO.medium gs thr {}).addsOnlyRequested (S3FIFO.inv_init gs thr _ h)

/-- which missed objects are cached: those smaller than the small queue, and ghosts as large as it -/
def S3FIFO_takes (fs : Nat) (s : S3FIFO.State) (r : Req) : Bool :=
  decide (r.size < fs ∨ (r.size = fs ∧ r.id ∈ S3FIFO_ghost s))

/-- What is proved of C05: `can_insert` accepts any object not larger than the small queue, but of the objects just as large as it only those in the
ghost queue are cached. -/
theorem C05_admittedMissCached_S3FIFO_partial (cs fs gs thr : Nat) (h : fs ≤ cs) :
    AdmittedMissCached S3FIFO.algo S3FIFO_cached (S3FIFO_takes fs) (S3FIFO.init cs fs gs thr) (Calls {} (fun _ => True)) := by
  intro ops out s ho hr r hok hn ha
  have C := S3FIFO.medium (cs := cs) (fs := fs) gs thr {}
  have hi := C.reach (S3FIFO.inv_init gs thr _ h) ho hr
  obtain ⟨_, _, hg⟩ := C.hitIffCached (S3FIFO.inv_init gs thr _ h) ops out s ho hr
  obtain ⟨s', hs'⟩ := hg r hok
  rw [decide_eq_false hn] at hs'
  refine ⟨s', hs', (S3FIFO.get_queues hi hs').2.2.1 rfl ?_⟩
  exact of_decide_eq_true ha

/-- an admitted miss that evicts, and one of a ghost as large as the small queue -/
example : (7 ∉ (S3FIFO_cached S3FIFO_demo).ids ∧ S3FIFO_takes 4 S3FIFO_demo ⟨7, 3, -2⟩ = true) ∧ S3FIFO_takes 4 S3FIFO_demo ⟨8, 4, -2⟩ = true := by decide

/-- C05 fails for an object as large as the small queue: `can_insert` accepts it, `insert` drops it. -/
theorem C05_admittedMissCached_fails_S3FIFO :
    ¬ AdmittedMissCached S3FIFO.algo S3FIFO_cached (fun s r => (S3FIFO.algo.canInsert s r).1) (S3FIFO.init 10 4 9 1) (Calls {} (fun _ => True)) := by
  intro h
  obtain ⟨s', h1, h2⟩ := h [] [] _ (by simp) rfl ⟨1, 4, -2⟩ trivial (by decide) (by decide)
  have h1' : S3FIFO.algo.get (S3FIFO.init 10 4 9 1) ⟨1, 4, -2⟩ = .ok (false, { S3FIFO.init 10 4 9 1 with nReq := 1 }) := rfl
  rw [h1'] at h1
  cases h1
  revert h2
  decide

theorem C06_evictOnDemand_S3FIFO (cs fs gs thr : Nat) (h : fs ≤ cs) :
    EvictOnDemand S3FIFO.algo S3FIFO_cached (S3FIFO.init cs fs gs thr) (Calls {} (fun _ => True)) cs 0 :=
  (S3FIFO.medium gs thr {}).evictOnDemand (S3FIFO.inv_init gs thr _ h) (S3FIFO.insertOr gs thr _)

/-- What is proved of C07: without client inserts `remove` removes exactly the object.  Its answer is also `true` for a ghost. -/
theorem C07_removeExact_S3FIFO_partial (cs fs gs thr : Nat) (h : fs ≤ cs) (ops : List Op) (out : List Bool) (s : S3FIFO.State)
    (ho : ∀ op ∈ ops, Calls { ins := false } (fun _ => True) op) (hr : Reaches S3FIFO.algo (S3FIFO.init cs fs gs thr) ops out s) (id : ObjId) :
    ∃ s', S3FIFO.algo.remove s id = .ok (decide (id ∈ (S3FIFO_cached s).ids ∨ id ∈ S3FIFO_ghost s), s') ∧
      S3FIFO_cached s' = (S3FIFO_cached s).filter (fun x => x.1 ≠ id) := by
  have hi := (S3FIFO.medium (cs := cs) (fs := fs) gs thr { ins := false }).reach (S3FIFO.inv_init gs thr _ h) ho hr
  obtain ⟨s', k1, _, k3, _⟩ := S3FIFO.remove_spec hi rfl id
  exact ⟨s', k1, k3⟩

/-- C07 fails for the answer: removing an object that is only in the ghost queue answers `true`. -/
theorem C07_removeExact_fails_S3FIFO :
    ¬ RemoveExact S3FIFO.algo S3FIFO_cached (S3FIFO.init 10 4 9 1) (Calls { ins := false } (fun _ => True)) := by
  intro h
  obtain ⟨s', h1, _⟩ := h [.get ⟨1, 3, -2⟩, .evict ⟨0, 0, -2⟩] [false, true] (match S3FIFO.algo.run (S3FIFO.init 10 4 9 1) [.get ⟨1, 3, -2⟩, .evict ⟨0, 0, -2⟩] with | .ok p => p.2 | .error _ => S3FIFO.init 10 4 9 1)
    (by simp [Calls]) rfl 1
  have h2 : (S3FIFO.algo.remove (match S3FIFO.algo.run (S3FIFO.init 10 4 9 1) [.get ⟨1, 3, -2⟩, .evict ⟨0, 0, -2⟩] with | .ok p => p.2 | .error _ => S3FIFO.init 10 4 9 1) 1).map (fun p => p.1) = .ok true := rfl
  rw [h1] at h2
  revert h2
  exact fun h2 => absurd h2 (by simp only [Except.map]; decide)

/-- C07 fails for the effect when the client inserts: object 1 is cached, `remove 1` answers `true`, object 1 is still cached. -/
theorem C07_removeEffect_fails_S3FIFO : ∃ ops out s s', (∀ op ∈ ops, Calls {} (fun _ => True) op) ∧
    Reaches S3FIFO.algo (S3FIFO.init 10 4 20 1) ops out s ∧ (1, 3) ∈ S3FIFO_cached s ∧ S3FIFO.algo.remove s 1 = .ok (true, s') ∧ (1, 3) ∈ S3FIFO_cached s' :=
  ⟨S3FIFO_stale, _, S3FIFO_staleEnd, match S3FIFO.algo.remove S3FIFO_staleEnd 1 with | .ok p => p.2 | .error _ => S3FIFO_staleEnd,
    S3FIFO_stale_calls, S3FIFO_stale_reached.1, by decide, rfl, by decide⟩

/-- C08: a request that is not admitted leaves both queues unchanged (order, frequencies and counters included).  It does drop the object's ghost
entry. -/
theorem C08_rejectQuiet_S3FIFO (cs fs gs thr : Nat) (h : fs ≤ cs) :
    RejectQuiet S3FIFO.algo S3FIFO_cached (fun _ r => decide (r.size ≤ fs)) (fun s => (s.fifo, s.main)) (S3FIFO.init cs fs gs thr)
      (Calls {} (fun _ => True)) := by
  intro ops out s ho hr r hok hn ha
  have C := S3FIFO.medium (cs := cs) (fs := fs) gs thr {}
  have hi := C.reach (S3FIFO.inv_init gs thr _ h) ho hr
  obtain ⟨_, _, hg⟩ := C.hitIffCached (S3FIFO.inv_init gs thr _ h) ops out s ho hr
  obtain ⟨s', hs'⟩ := hg r hok
  rw [decide_eq_false hn] at hs'
  obtain ⟨e1, e2⟩ := (S3FIFO.get_queues hi hs').2.2.2 rfl (by simpa using ha)
  exact ⟨s', hs', by simp only [e1, e2]⟩

/-- a rejected request -/
example : 7 ∉ (S3FIFO_cached S3FIFO_demo).ids ∧ decide ((⟨7, 5, -2⟩ : Req).size ≤ 4) = false := by decide

theorem C09_safe_S3FIFO (cs fs gs thr : Nat) (h : fs ≤ cs) :
    Safe S3FIFO.algo (S3FIFO.init cs fs gs thr) (Calls {} (fun _ => True)) :=
  (S3FIFO.medium gs thr {}).safe (S3FIFO.inv_init gs thr _ h)

/-- `evict` on a non-empty cache may evict nothing: it may move the whole small queue to the main queue. -/
theorem C09_evictsOne_fails_S3FIFO :
    ¬ EvictsOne S3FIFO.algo S3FIFO_cached (S3FIFO.init 10 4 9 1) (Calls {} (fun _ => True)) := by
  intro h
  obtain ⟨v, s', h1, h2⟩ := h [.get ⟨1, 3, -2⟩, .get ⟨1, 3, -2⟩] [false, true] (match S3FIFO.algo.run (S3FIFO.init 10 4 9 1) [.get ⟨1, 3, -2⟩, .get ⟨1, 3, -2⟩] with | .ok p => p.2 | .error _ => S3FIFO.init 10 4 9 1)
    (by simp [Calls]) rfl (by decide) ⟨0, 0, -2⟩
  have h3 : (S3FIFO.algo.evict (match S3FIFO.algo.run (S3FIFO.init 10 4 9 1) [.get ⟨1, 3, -2⟩, .get ⟨1, 3, -2⟩] with | .ok p => p.2 | .error _ => S3FIFO.init 10 4 9 1) ⟨0, 0, -2⟩).map S3FIFO_cached = .ok [(1, 3)] := rfl
  rw [h1] at h3
  have h4 : S3FIFO_cached s' = [(1, 3)] := by simpa [Except.map] using h3
  have := h2.length_eq
  rw [List.length_cons, h4] at this
  revert this
  decide

/-! ## C21: the three queues -/

/-- C21, first part.  Without client inserts an object is at most once in the small queue, the main queue and the ghost queue taken together. -/
theorem C21_oneQueue_S3FIFO_partial (cs fs gs thr : Nat) (h : fs ≤ cs) (ops : List Op) (out : List Bool) (s : S3FIFO.State)
    (ho : ∀ op ∈ ops, Calls { ins := false } (fun _ => True) op) (hr : Reaches S3FIFO.algo (S3FIFO.init cs fs gs thr) ops out s) :
    (S3FIFO_small s ++ S3FIFO_main s ++ S3FIFO_ghost s).Nodup := by
  have hi := (S3FIFO.medium (cs := cs) (fs := fs) gs thr { ins := false }).reach (S3FIFO.inv_init gs thr _ h) ho hr
  rw [List.nodup_append, List.nodup_append]
  refine ⟨⟨hi.fifo.nodup, hi.main.nodup, fun a ha b hb e => ?_⟩, ?_, fun a ha b hb e => ?_⟩
  · exact hi.dis a ha (by rw [e]; exact hb)
  · exact ghostIds_nodup hi.ghost
  · subst e
    refine hi.sep rfl a hb ((S3FIFO.mem_cached s a).2 ?_)
    exact List.mem_append.1 ha

example : S3FIFO_small S3FIFO_demo ++ S3FIFO_main S3FIFO_demo ++ S3FIFO_ghost S3FIFO_demo = [10, 5, 3, 1, 6, 8] := by decide

/-- C21, first part, with client inserts: still at most one of the small queue and the main queue. -/
theorem C21_oneCachedQueue_S3FIFO (cs fs gs thr : Nat) (h : fs ≤ cs) (ops : List Op) (out : List Bool) (s : S3FIFO.State)
    (ho : ∀ op ∈ ops, Calls {} (fun _ => True) op) (hr : Reaches S3FIFO.algo (S3FIFO.init cs fs gs thr) ops out s) :
    (S3FIFO_small s ++ S3FIFO_main s).Nodup := by
  have hi := (S3FIFO.medium (cs := cs) (fs := fs) gs thr {}).reach (S3FIFO.inv_init gs thr _ h) ho hr
  rw [List.nodup_append]
  exact ⟨hi.fifo.nodup, hi.main.nodup, fun a ha b hb e => hi.dis a ha (by rw [e]; exact hb)⟩

/-- C21, first part, fails with client inserts: the object can be in the main queue and in the ghost queue. -/
theorem C21_oneQueue_fails_S3FIFO : ∃ ops out s, (∀ op ∈ ops, Calls {} (fun _ => True) op) ∧
    Reaches S3FIFO.algo (S3FIFO.init 10 4 20 1) ops out s ∧ 1 ∈ S3FIFO_main s ∧ 1 ∈ S3FIFO_ghost s :=
  ⟨_, _, _, S3FIFO_stale_calls, S3FIFO_stale_reached.1, by decide, by decide⟩

/-- C21, second part.  Without client inserts, a call brings an object into the main queue only if the object was in the small queue and hit at least
`thr` times since it entered the cache, or if the call is a `get` of the object while it is in the ghost queue.  `hitsSince` is counted from the client's calls and
their answers alone. -/
theorem C21_entersMain_S3FIFO (cs fs gs thr : Nat) (h : fs ≤ cs) (ops : List Op) (out : List Bool) (s : S3FIFO.State)
    (ho : ∀ op ∈ ops, Calls { ins := false } (fun _ => True) op) (hr : Reaches S3FIFO.algo (S3FIFO.init cs fs gs thr) ops out s)
    (op : Op) (hop : Calls { ins := false } (fun _ => True) op) (b : Bool) (s' : S3FIFO.State) (hs : S3FIFO.algo.step s op = .ok (b, s'))
    (i : ObjId) (hnew : i ∈ S3FIFO_main s') (hold : i ∉ S3FIFO_main s) :
    (i ∈ S3FIFO_small s ∧ thr ≤ hitsSince (ops.zip out) i) ∨ (i ∈ S3FIFO_ghost s ∧ ∃ r, op = .get r ∧ r.id = i) := by
  have h0 := S3FIFO.inv_init gs thr ((({ ins := false } : Perms)).ins = false) h
  have hi := (S3FIFO.medium (cs := cs) (fs := fs) gs thr { ins := false }).reach h0 ho hr
  have hf := (S3FIFO.reach_freq (p := { ins := false }) h0 rfl ops out s ho hr).1
  rcases S3FIFO.step_main rfl hi hop hs i hnew with h1 | ⟨o, ho, rfl, hth⟩ | ⟨r, h1, h2, h3⟩
  · exact absurd h1 hold
  · exact Or.inl ⟨List.mem_map_of_mem ho, by rw [← hf o ho]; exact hth⟩
  · exact Or.inr ⟨h3, r, h1, h2.symm⟩

/-- both ways into the main queue occur -/
example : (S3FIFO.algo.run (S3FIFO.init 10 4 9 1) [.get ⟨1, 3, -2⟩, .get ⟨1, 3, -2⟩, .evict ⟨0, 0, -2⟩]).map (fun p => S3FIFO_main p.2) = .ok [1] := rfl
example : (S3FIFO.algo.run (S3FIFO.init 10 4 9 1) [.get ⟨1, 3, -2⟩, .evict ⟨0, 0, -2⟩, .get ⟨1, 3, -2⟩]).map (fun p => S3FIFO_main p.2) = .ok [1] := rfl

/-- The hits of an object in the small queue, as counted by the cache, are those the client saw. -/
theorem C21_hitsCounted_S3FIFO (cs fs gs thr : Nat) (h : fs ≤ cs) (ops : List Op) (out : List Bool) (s : S3FIFO.State)
    (ho : ∀ op ∈ ops, Calls {} (fun _ => True) op) (hr : Reaches S3FIFO.algo (S3FIFO.init cs fs gs thr) ops out s) :
    ∀ o ∈ s.fifo.objs, o.mt = hitsSince (ops.zip out) o.id :=
  (S3FIFO.reach_freq (p := {}) (S3FIFO.inv_init gs thr _ h) rfl ops out s ho hr).1

example : (S3FIFO.algo.run (S3FIFO.init 10 4 9 1) [.get ⟨1, 3, -2⟩, .get ⟨1, 3, -2⟩, .find ⟨1, 3, -2⟩ true]).map (fun p => p.2.fifo.objs.map (·.mt)) = .ok [2] := rfl

/-- A hit, in either queue, adds one to the count of the object and changes no other count and no order. -/
theorem C21_hitCounts_S3FIFO (cs fs gs thr : Nat) (h : fs ≤ cs) (ops : List Op) (out : List Bool) (s : S3FIFO.State)
    (ho : ∀ op ∈ ops, Calls {} (fun _ => True) op) (hr : Reaches S3FIFO.algo (S3FIFO.init cs fs gs thr) ops out s) (r : Req) (s' : S3FIFO.State)
    (hs : S3FIFO.algo.get s r = .ok (true, s') ∨ S3FIFO.algo.find s r true = .ok (true, s')) :
    S3FIFO.counts s'.fifo.objs = countHit r.id (S3FIFO.counts s.fifo.objs) ∧ S3FIFO.counts s'.main.objs = countHit r.id (S3FIFO.counts s.main.objs) := by
  have C := S3FIFO.medium (cs := cs) (fs := fs) gs thr {}
  have hi := C.reach (S3FIFO.inv_init gs thr _ h) ho hr
  rcases hs with hs | hs
  · have hin : r.id ∈ (S3FIFO.cached s).ids := by
      obtain ⟨_, _, hg⟩ := C.hitIffCached (S3FIFO.inv_init gs thr _ h) ops out s ho hr
      obtain ⟨s'', hg⟩ := hg r trivial
      rw [hs] at hg
      injection hg with hg
      injection hg with hg _
      exact of_decide_eq_true hg.symm
    obtain ⟨s1, hf, _⟩ := C.findHit r (S3FIFO.bump_inv hi) hin (Fresh.bump trivial hi)
    rw [get_hit hf] at hs
    cases hs
    exact S3FIFO.find_counts (S3FIFO.bump_inv hi) hf
  · exact S3FIFO.find_counts hi hs

example : (S3FIFO.algo.run (S3FIFO.init 10 4 9 1) [.get ⟨1, 3, -2⟩, .get ⟨1, 3, -2⟩, .evict ⟨0, 0, -2⟩, .get ⟨2, 3, -2⟩, .get ⟨1, 3, -2⟩, .get ⟨2, 3, -2⟩]).map
    (fun p => (S3FIFO.counts p.2.fifo.objs, S3FIFO.counts p.2.main.objs)) = .ok ([(2, 1)], [(1, 1)]) := rfl

/-- C21: whom `evict` takes.  Queues are listed youngest first with the hits counted.  If the main queue exceeds its share `cs - fs`, or the small
queue is empty, one second-chance round (counts capped at 3) is made on the main queue.  Otherwise, from the oldest on, the objects of the small
queue with at least `thr` hits move to the front of the main queue with their count cleared, up to the first one with fewer hits, which is the victim
(there may be none).  The victim's id enters the ghost queue, if there is one and the object would fit. -/
theorem C21_victim_S3FIFO (cs fs gs thr : Nat) (h : fs ≤ cs) (ops : List Op) (out : List Bool) (s : S3FIFO.State)
    (ho : ∀ op ∈ ops, Calls {} (fun _ => True) op) (hr : Reaches S3FIFO.algo (S3FIFO.init cs fs gs thr) ops out s)
    (hpos : 0 < bytes 0 (S3FIFO_cached s)) (r : Req) :
    ∃ s', S3FIFO.algo.evict s r = .ok s' ∧
    ((bytes 0 (cont s.main.objs) > cs - fs ∨ bytes 0 (cont s.fifo.objs) = 0) →
      s'.fifo = s.fifo ∧ ∃ v, SecondChance 3 (S3FIFO.counts s.main.objs) v (S3FIFO.counts s'.main.objs)) ∧
    (¬ (bytes 0 (cont s.main.objs) > cs - fs ∨ bytes 0 (cont s.fifo.objs) = 0) →
      ∃ victim moved, s.fifo.objs = s'.fifo.objs ++ victim ++ moved ∧ victim.length ≤ 1 ∧ (victim = [] → bytes 0 (cont s'.fifo.objs) = 0) ∧
        (∀ o ∈ moved, thr ≤ o.mt) ∧ (∀ o ∈ victim, o.mt < thr) ∧
        S3FIFO.counts s'.main.objs = moved.map (fun o => (o.id, 0)) ++ S3FIFO.counts s.main.objs ∧
        (∀ o ∈ victim, 0 < gs → o.size ≤ gs → o.id ∈ S3FIFO_ghost s')) := by
  have hi := (S3FIFO.medium (cs := cs) (fs := fs) gs thr {}).reach (S3FIFO.inv_init gs thr _ h) ho hr
  simp only [bytes_eq_charge] at hpos ⊢
  exact S3FIFO.evict_victim hi hpos

/-- both cases occur -/
example : (S3FIFO.algo.run (S3FIFO.init 10 4 9 1) [.get ⟨1, 3, -2⟩, .get ⟨1, 3, -2⟩, .get ⟨2, 2, -2⟩, .get ⟨3, 2, -2⟩, .get ⟨3, 2, -2⟩, .evict ⟨0, 0, -2⟩]).map
    (fun p => (S3FIFO_small p.2, S3FIFO_main p.2, S3FIFO_ghost p.2)) = .ok ([3], [1], [2]) := rfl
example : (S3FIFO.algo.run (S3FIFO.init 10 4 9 1) [.get ⟨1, 3, -2⟩, .get ⟨1, 3, -2⟩, .get ⟨2, 2, -2⟩, .get ⟨2, 2, -2⟩, .evict ⟨0, 0, -2⟩, .get ⟨1, 3, -2⟩, .evict ⟨0, 0, -2⟩]).map
    (fun p => (S3FIFO_small p.2, S3FIFO_main p.2, S3FIFO_ghost p.2)) = .ok ([], [1], []) := rfl

/-- C21, last part: every call ends, and the two queues stay within the cache size together. -/
theorem C21_terminatesWithinSize_S3FIFO (cs fs gs thr : Nat) (h : fs ≤ cs) (ops : List Op) (ho : ∀ op ∈ ops, Calls {} (fun _ => True) op) :
    ∃ out s, Reaches S3FIFO.algo (S3FIFO.init cs fs gs thr) ops out s ∧ bytes 0 (S3FIFO_cached s) ≤ cs := by
  have C := S3FIFO.medium (cs := cs) (fs := fs) gs thr {}
  have h0 := S3FIFO.inv_init gs thr ((({} : Perms)).ins = false) h
  obtain ⟨out, s, hr⟩ := C.safe h0 ops ho
  refine ⟨out, s, hr, ?_⟩
  have h1 := C.capacity h0 ops out s ho hr
  rw [(C.accounting h0 ops out s ho hr).1] at h1
  exact Int.ofNat_le.1 h1

end Verif.Props
