import Verif.Proof.Size
import Verif.Props.Demo
/-!
# Properties of Size (libCacheSim/cache/eviction/Size.c)

The statements are those of `Verif/Spec/Cache.lean`; here they are instantiated for Size and proved.  They hold for
every cache size, every metadata size, every admission policy and every sequence of client calls.
-/

namespace Verif.Props
open Verif Verif.Spec
set_option linter.unusedVariables false

/-- what Size has cached -/
abbrev Size_cached (s : Size.State) : Contents := s.base.cached

/-- The state after the demo calls on a cache of 10 bytes. -/
def Size_demo : Size.State :=
  match Size.algo.run (Size.init 10 0 .none) demo with
  | .ok p => p.2
  | .error _ => Size.init 10 0 .none

/-- The demo calls are permitted, run, and hit/miss as listed; the state they lead to is `Size_demo`. -/
theorem Size_demo_reached : Reaches Size.algo (Size.init 10 0 .none) demo
    [false, false, true, false, false, true, false, false, true, true, false, false, false, false, true, true, true] Size_demo ∧
    Size_cached Size_demo = [(8, 1), (6, 1), (5, 1), (2, 3)] := ⟨rfl, by decide⟩

theorem C01_capacity_Size (cs md : Nat) (adm : Adm) :
    Capacity Size.algo (Size.init cs md adm) (Calls {} (SizeOk md)) cs :=
  (Size.strong cs md).capacity (PQCache.inv_init cs md adm)

example : Size.algo.occ Size_demo > 0 := by decide

theorem C02_accounting_Size (cs md : Nat) (adm : Adm) :
    Accounting Size.algo Size_cached (Size.init cs md adm) (Calls {} (SizeOk md)) md :=
  (Size.strong cs md).accounting (PQCache.inv_init cs md adm)

example : Size.algo.nObj Size_demo > 1 := by decide

theorem C03_hitIffCached_Size (cs md : Nat) (adm : Adm) :
    HitIffCached Size.algo Size_cached (Size.init cs md adm) (Calls {} (SizeOk md)) :=
  (Size.strong cs md).hitIffCached (PQCache.inv_init cs md adm)

theorem C04_noPhantom_Size (cs md : Nat) (adm : Adm) :
    NoPhantom Size.algo Size_cached (Size.init cs md adm) (Calls {} (SizeOk md)) :=
  (Size.strong cs md).noPhantom (PQCache.inv_init cs md adm) rfl

theorem C04_addsOnlyRequested_Size (cs md : Nat) (adm : Adm) :
    AddsOnlyRequested Size.algo Size_cached (Size.init cs md adm) (Calls {} (SizeOk md)) :=
  (Size.strong cs md).addsOnlyRequested (PQCache.inv_init cs md adm)

theorem C05_admittedMissCached_Size (cs md : Nat) (adm : Adm) :
    AdmittedMissCached Size.algo Size_cached (fun s r => admitsBase s.base r) (Size.init cs md adm)
      (Calls {} (SizeOk md)) :=
  (Size.strong cs md).admittedMissCached (PQCache.inv_init cs md adm)

/-- an admitted miss that needs several evictions -/
example : (7 ∉ (Size_cached Size_demo).ids ∧ admitsBase Size_demo.base ⟨7, 9, -2⟩ = true) := by decide

theorem C06_evictOnDemand_Size (cs md : Nat) (adm : Adm) :
    EvictOnDemand Size.algo Size_cached (Size.init cs md adm) (Calls {} (SizeOk md)) cs md :=
  (Size.strong cs md).evictOnDemand (PQCache.inv_init cs md adm)

theorem C07_removeExact_Size (cs md : Nat) (adm : Adm) :
    RemoveExact Size.algo Size_cached (Size.init cs md adm) (Calls {} (SizeOk md)) :=
  (Size.spec cs md).removeExact (Size.strong cs md) (PQCache.inv_init cs md adm)

/-- `core` is the whole state but the request counter and the admission policy's state. -/
theorem C08_rejectQuiet_Size (cs md : Nat) (adm : Adm) :
    RejectQuiet Size.algo Size_cached (fun s r => admitsBase s.base r) PQCache.core (Size.init cs md adm)
      (Calls {} (SizeOk md)) :=
  (Size.strong cs md).rejectQuiet (PQCache.inv_init cs md adm)

/-- a rejected request -/
example : (7 ∉ (Size_cached Size_demo).ids ∧ admitsBase Size_demo.base ⟨7, 11, -2⟩ = false) := by decide

theorem C09_safe_Size (cs md : Nat) (adm : Adm) :
    Safe Size.algo (Size.init cs md adm) (Calls {} (SizeOk md)) :=
  (Size.strong cs md).safe (PQCache.inv_init cs md adm)

theorem C09_evictsOne_Size (cs md : Nat) (adm : Adm) :
    EvictsOne Size.algo Size_cached (Size.init cs md adm) (Calls {} (SizeOk md)) :=
  (Size.spec cs md).evictsOne (Size.strong cs md) (PQCache.inv_init cs md adm) rfl

theorem C10_toEvictPredicts_Size (cs md : Nat) (adm : Adm) :
    ToEvictPredicts Size.algo Size_cached Size.toEvict (Size.init cs md adm) (Calls {} (SizeOk md)) :=
  (Size.spec cs md).toEvictPredicts (Size.strong cs md) (PQCache.inv_init cs md adm) Size.toEvict
    (fun hi hne _ => Size.toEvict_spec hi hne)

example : Size_cached Size_demo ≠ [] ∧ Size.toEvict Size_demo = some 2 := by decide

/-! ## C19: the largest object goes first -/

/-- The calls permitted, with sizes that a `double` represents exactly. -/
def exactSize (md : Nat) (op : Op) : Prop :=
  Calls {} (SizeOk md) op ∧ ∀ b r, presents op b = some r → r.size ≤ 9007199254740992

/-- C19.  `evict` removes an object with the largest size, going by the latest request for each cached object. -/
theorem C19_evictsLargest_Size (cs md : Nat) (adm : Adm) :
    EvictsTop Size.algo Size_cached (fun r => (r.size : Int)) (Size.init cs md adm) (exactSize md) := by
  intro ops out s ho h hne r
  obtain ⟨v, s', rv, h1, h2, h3, h4⟩ := PQCache.evictsTop cs md Size.key (PQCache.insert Size.key) (SizeOk md) (fun _ h => h) (fun _ _ _ => rfl)
    adm ops out s (fun op hop => (ho op hop).1) h hne r
  refine ⟨v, s', rv, h1, h2, h3, fun x hx => ?_⟩
  obtain ⟨rx, h5, h6⟩ := h4 x hx
  refine ⟨rx, h5, ?_⟩
  have ex : ∀ {id r}, latest (ops.zip out) id = some r → ExactDbl (r.size : Int) := by
    intro id r hl
    obtain ⟨op, hop, b, hb⟩ := latest_presents hl
    have := (ho op hop).2 b r hb
    exact .inl ⟨by omega, by omega⟩
  exact (ex h5).le_of_dbl (ex h3) h6

/-- C19.  If every request for an object states the same size, below 2^32, then `evict` removes an object of largest stored size. -/
theorem C19_evictsLargestStored_Size (cs md : Nat) (adm : Adm) (ops : List Op) (out : List Bool) (s : Size.State)
    (ho : ∀ op ∈ ops, exactSize md op) (h : Reaches Size.algo (Size.init cs md adm) ops out s) (hne : Size_cached s ≠ []) (size : ObjId → Nat)
    (hsz : ∀ op ∈ ops, ∀ r, insertedBy op = some r ∨ op = .find r true → r.size = size r.id ∧ r.size < u32) (r : Req) :
    ∃ v s', Size.algo.evict s r = .ok s' ∧ (Size_cached s).Perm (v :: Size_cached s') ∧ ∀ x ∈ Size_cached s, x.2 ≤ v.2 := by
  obtain ⟨v, s', rv, h1, h2, h3, h4⟩ := C19_evictsLargest_Size cs md adm ops out s ho h hne r
  have hst : ∀ x ∈ Size_cached s, x.2 = size x.1 := by
    intro x hx
    obtain ⟨pre, op, post, r', e, hi, hid, hs, _⟩ := (C04_noPhantom_Size cs md adm ops out s (fun op hop => (ho op hop).1) h).2 x hx
    have := hsz op (by rw [e]; simp) r' (.inl hi)
    rw [← hs, Nat.mod_eq_of_lt this.2, this.1, hid]
  have hl : ∀ {id r'}, latest (ops.zip out) id = some r' → r'.size = size id := by
    intro id r' hl
    obtain ⟨op, hop, b, hb⟩ := latest_presents hl
    have hid := latest_id hl
    refine (hsz op hop r' ?_).1.trans (by rw [hid])
    cases op <;> simp only [presents] at hb
    · exact .inl hb
    · split at hb <;> simp_all
    · cases hb
    · cases hb
    · split at hb <;> simp_all [insertedBy]
  refine ⟨v, s', h1, h2, fun x hx => ?_⟩
  obtain ⟨rx, h5, h6⟩ := h4 x hx
  rw [hst x hx, hst v (h2.symm.subset (by simp)), ← hl h5, ← hl h3]
  exact Int.ofNat_le.mp h6

example : latest (demo.zip [false, false, true, false, false, true, false, false, true, true, false, false, false, false, true, true, true]) 2 =
    some ⟨2, 3, -2⟩ := by decide
example : ∀ op ∈ demo, exactSize 0 op := by
  intro op hop
  refine ⟨demo_calls 0 (by omega) op hop, fun b r hb => ?_⟩
  simp only [demo, List.mem_cons, List.not_mem_nil, or_false] at hop
  rcases hop with rfl | rfl | rfl | rfl | rfl | rfl | rfl | rfl | rfl | rfl | rfl | rfl | rfl | rfl | rfl | rfl | rfl <;>
    cases b <;> simp [presents] at hb <;> subst hb <;> simp

/-- Sizes that change: the stored size of an object stays, but the queue takes the size of the latest request.  After requesting object 1 with
size 5, object 2 with size 4 and object 1 again with size 1, `evict` removes object 2 although object 1 occupies more. -/
theorem C19_changedSize_fails : ∃ s s', Size.algo.run (Size.init 10 0 .none) [.get ⟨1, 5, -2⟩, .get ⟨2, 4, -2⟩, .get ⟨1, 1, -2⟩] =
      .ok ([false, false, true], s) ∧ Size_cached s = [(2, 4), (1, 5)] ∧ Size.algo.evict s ⟨3, 1, -2⟩ = .ok s' ∧ Size_cached s' = [(1, 5)] := by
  refine ⟨(match Size.algo.run (Size.init 10 0 .none) [.get ⟨1, 5, -2⟩, .get ⟨2, 4, -2⟩, .get ⟨1, 1, -2⟩] with | .ok p => p.2 | .error _ => Size.init 10 0 .none),
    (match Size.algo.run (Size.init 10 0 .none) [.get ⟨1, 5, -2⟩, .get ⟨2, 4, -2⟩, .get ⟨1, 1, -2⟩, .evict ⟨3, 1, -2⟩] with | .ok p => p.2 | .error _ => Size.init 10 0 .none),
    rfl, by decide, rfl, by decide⟩

end Verif.Props
