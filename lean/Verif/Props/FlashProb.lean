import Verif.Proof.FlashProb
import Verif.Props.Demo
/-!
# Properties of flashProb (libCacheSim/cache/eviction/other/flashProb.c)

For every cache size `cs`, every nominal RAM size `ram`, every admission policy, LRU (the default) and FIFO as RAM cache, every `n` (one of `n` objects leaving
the RAM is written to the disk) and every sequence of random numbers, with FIFO (the default) or Clock as disk cache.

`flashProb_evict` reads the size of an object after freeing it.  The theorems named `_partial` assume that this read does no harm (`strict` is
`false`), that `n` is not 0, i.e. `disk-admit-prob` is at most 1, and, if the client calls `evict`, that it requests no empty object
(`FlashProb.Fits`).  Without these the cache crashes: the theorems named `_fails`.
-/

namespace Verif.Props
open Verif Verif.Spec
set_option linter.unusedVariables false
set_option maxRecDepth 20000

/-- a client that calls everything, with non-empty objects -/
theorem FlashProb_fits_all : FlashProb.Fits {} (fun r => 0 < r.size % u32) := fun _ h _ => h

/-- a client that does not call `evict`, with any objects -/
theorem FlashProb_fits_simulator : FlashProb.Fits { ev := false } (fun _ => True) := fun _ _ h => by simp at h

/-- a demo run -/
def FlashProb_ops : List Op := [.get ⟨1, 4, -2⟩, .get ⟨2, 3, -2⟩, .get ⟨1, 4, -2⟩, .get ⟨3, 3, -2⟩, .get ⟨4, 2, -2⟩, .find ⟨3, 3, -2⟩ false,
  .find ⟨1, 4, -2⟩ true, .get ⟨7, 30, -2⟩, .get ⟨2, 3, -2⟩, .remove 4, .remove 9, .get ⟨1, 4, -2⟩, .get ⟨5, 1, -2⟩,
  .get ⟨6, 1, -2⟩, .get ⟨6, 1, -2⟩, .evict ⟨0, 1, -2⟩, .insert ⟨8, 1, -2⟩, .get ⟨9, 3, -2⟩, .get ⟨3, 3, -2⟩]

theorem FlashProb_ops_calls : ∀ op ∈ FlashProb_ops, Calls {} (fun r => 0 < r.size % u32) op := by
  intro op hop
  simp only [FlashProb_ops, List.mem_cons, List.not_mem_nil, or_false] at hop
  rcases hop with rfl | rfl | rfl | rfl | rfl | rfl | rfl | rfl | rfl | rfl | rfl | rfl | rfl | rfl | rfl | rfl | rfl | rfl | rfl <;> simp [Calls, u32]

/-- random numbers: multiples of 2 and others -/
def FlashProb_picks : List Nat := [4, 7, 2, 0, 5, 6, 1, 8]

/-! ## Disk cache FIFO -/

/-- what is cached: RAM and disk -/
abbrev FlashProbFIFO_cached (s : FlashProb.State FIFO.State) : Contents := FlashProb.cached (fun d => d.base.cached) s

def FlashProbFIFO_demo : FlashProb.State FIFO.State := after FlashProb.onFIFO (FlashProb.initFIFO 10 4 .none true 2 FlashProb_picks false) FlashProb_ops

/-- the demo runs without fault -/
example : (answers FlashProb.onFIFO (FlashProb.initFIFO 10 4 .none true 2 FlashProb_picks false) FlashProb_ops).isSome = true := by decide +kernel

theorem C01_capacity_FlashProbFIFO_partial (cs ram : Nat) (adm : Adm) (lru : Bool) (n : Nat) (picks : List Nat) (hn : 0 < n) (p : Perms) (ok : Req → Prop) (hok : FlashProb.Fits p ok) :
    Capacity FlashProb.onFIFO (FlashProb.initFIFO cs ram adm lru n picks false) (Calls p ok) cs :=
  (FlashProb.contract (MainCache.fifo (cs - ram)) (Nat.sub_le cs ram) hn ram lru hok).capacity (FlashProb.inv_init _ ⟨QInv.init (cs - ram) 0 .none, rfl⟩ rfl adm n picks _)

example : FlashProb.onFIFO.occ FlashProbFIFO_demo > 5 := by decide +kernel

theorem C02_accounting_FlashProbFIFO_partial (cs ram : Nat) (adm : Adm) (lru : Bool) (n : Nat) (picks : List Nat) (hn : 0 < n) (p : Perms) (ok : Req → Prop) (hok : FlashProb.Fits p ok) :
    Accounting FlashProb.onFIFO FlashProbFIFO_cached (FlashProb.initFIFO cs ram adm lru n picks false) (Calls p ok) 0 :=
  (FlashProb.contract (MainCache.fifo (cs - ram)) (Nat.sub_le cs ram) hn ram lru hok).accounting (FlashProb.inv_init _ ⟨QInv.init (cs - ram) 0 .none, rfl⟩ rfl adm n picks _)

example : FlashProb.onFIFO.nObj FlashProbFIFO_demo > 2 ∧ FlashProbFIFO_demo.disk.base.nObj > 0 := by decide +kernel

theorem C03_hitIffCached_FlashProbFIFO_partial (cs ram : Nat) (adm : Adm) (lru : Bool) (n : Nat) (picks : List Nat) (hn : 0 < n) (p : Perms) (ok : Req → Prop) (hok : FlashProb.Fits p ok) :
    HitIffCached FlashProb.onFIFO FlashProbFIFO_cached (FlashProb.initFIFO cs ram adm lru n picks false) (Calls p ok) :=
  (FlashProb.contract (MainCache.fifo (cs - ram)) (Nat.sub_le cs ram) hn ram lru hok).hitIffCached (FlashProb.inv_init _ ⟨QInv.init (cs - ram) 0 .none, rfl⟩ rfl adm n picks _)

theorem C04_noPhantom_FlashProbFIFO_partial (cs ram : Nat) (adm : Adm) (lru : Bool) (n : Nat) (picks : List Nat) (hn : 0 < n) (p : Perms) (ok : Req → Prop) (hok : FlashProb.Fits p ok) :
    NoPhantom FlashProb.onFIFO FlashProbFIFO_cached (FlashProb.initFIFO cs ram adm lru n picks false) (Calls p ok) :=
  (FlashProb.contract (MainCache.fifo (cs - ram)) (Nat.sub_le cs ram) hn ram lru hok).noPhantom (FlashProb.inv_init _ ⟨QInv.init (cs - ram) 0 .none, rfl⟩ rfl adm n picks _) (by rfl) (fun _ s s' b id hi he => by
    obtain ⟨s'', k1, _, k3⟩ := FlashProb.remove_spec (MainCache.fifo (cs - ram)) hi id
    rw [show (FlashProb.algo FIFO.algo).remove s id = FlashProb.remove FIFO.algo s id from rfl, k1] at he
    cases he
    intro hx
    have := QDLP.ids_sub k3.subperm hx
    simp at this)

theorem C04_addsOnlyRequested_FlashProbFIFO_partial (cs ram : Nat) (adm : Adm) (lru : Bool) (n : Nat) (picks : List Nat) (hn : 0 < n) (p : Perms) (ok : Req → Prop) (hok : FlashProb.Fits p ok) :
    AddsOnlyRequested FlashProb.onFIFO FlashProbFIFO_cached (FlashProb.initFIFO cs ram adm lru n picks false) (Calls p ok) :=
  (FlashProb.contract (MainCache.fifo (cs - ram)) (Nat.sub_le cs ram) hn ram lru hok).addsOnlyRequested (FlashProb.inv_init _ ⟨QInv.init (cs - ram) 0 .none, rfl⟩ rfl adm n picks _)

theorem C05_admittedMissCached_FlashProbFIFO_partial (cs ram : Nat) (adm : Adm) (lru : Bool) (n : Nat) (picks : List Nat) (hn : 0 < n) (p : Perms) (ok : Req → Prop) (hok : FlashProb.Fits p ok) :
    AdmittedMissCached FlashProb.onFIFO FlashProbFIFO_cached (fun s r => admitsBase s.base r) (FlashProb.initFIFO cs ram adm lru n picks false) (Calls p ok) := by
  intro ops out s ho hr r hor hm ha
  have hi := (FlashProb.contract (MainCache.fifo (cs - ram)) (Nat.sub_le cs ram) hn ram lru hok).reach (FlashProb.inv_init _ ⟨QInv.init (cs - ram) 0 .none, rfl⟩ rfl adm n picks _) ho hr
  obtain ⟨d0, _, _, h⟩ := (FlashProb.get_spec (MainCache.fifo (cs - ram)) (Nat.sub_le cs ram) hn hi r (hok r hor)).2.2 hm
  obtain ⟨s', l, h1, h2, _⟩ := h ha
  refine ⟨s', h1, ?_⟩
  have h2' : cont s'.ram.objs = (r.id, r.size % u32) :: l := h2
  simp [FlashProbFIFO_cached, FlashProb.cached, h2']

/-- an admitted miss that evicts -/
example : 11 ∉ (FlashProbFIFO_cached FlashProbFIFO_demo).ids ∧ admitsBase FlashProbFIFO_demo.base ⟨11, 9, -2⟩ = true := by decide +kernel

theorem C07_removeExact_FlashProbFIFO_partial (cs ram : Nat) (adm : Adm) (lru : Bool) (n : Nat) (picks : List Nat) (hn : 0 < n) (p : Perms) (ok : Req → Prop) (hok : FlashProb.Fits p ok) :
    RemoveExact FlashProb.onFIFO FlashProbFIFO_cached (FlashProb.initFIFO cs ram adm lru n picks false) (Calls p ok) := by
  intro ops out s ho hr id
  have hi := (FlashProb.contract (MainCache.fifo (cs - ram)) (Nat.sub_le cs ram) hn ram lru hok).reach (FlashProb.inv_init _ ⟨QInv.init (cs - ram) 0 .none, rfl⟩ rfl adm n picks _) ho hr
  obtain ⟨s', k1, _, k3⟩ := FlashProb.remove_spec (MainCache.fifo (cs - ram)) hi id
  exact ⟨s', k1, k3⟩

/-- A request that is not admitted leaves both parts unchanged (order, frequencies and counters included), and draws no random number. -/
theorem C08_rejectQuiet_FlashProbFIFO_partial (cs ram : Nat) (adm : Adm) (lru : Bool) (n : Nat) (picks : List Nat) (hn : 0 < n) (p : Perms) (ok : Req → Prop) (hok : FlashProb.Fits p ok) :
    RejectQuiet FlashProb.onFIFO FlashProbFIFO_cached (fun s r => admitsBase s.base r) (fun s => (s.ram, s.disk, s.picks)) (FlashProb.initFIFO cs ram adm lru n picks false) (Calls p ok) := by
  intro ops out s ho hr r hor hm ha
  have hi := (FlashProb.contract (MainCache.fifo (cs - ram)) (Nat.sub_le cs ram) hn ram lru hok).reach (FlashProb.inv_init _ ⟨QInv.init (cs - ram) 0 .none, rfl⟩ rfl adm n picks _) ho hr
  obtain ⟨d0, h0, h, _⟩ := (FlashProb.get_spec (MainCache.fifo (cs - ram)) (Nat.sub_le cs ram) hn hi r (hok r hor)).2.2 hm
  obtain ⟨s', h1, h2, h3, h4⟩ := h ha
  refine ⟨s', h1, ?_⟩
  have hq := (FIFO.strong (cs - ram) 0).missQuiet r hi.disk.1 (fun hx => hm ((FlashProb.mem_cached s r.id).2 (Or.inr hx)))
  rw [hq] at h0
  injection h0 with h0
  injection h0 with _ h0
  simp only [h2, h3, h4, ← h0]

/-- a rejected request -/
example : 7 ∉ (FlashProbFIFO_cached FlashProbFIFO_demo).ids ∧ admitsBase FlashProbFIFO_demo.base ⟨7, 30, -2⟩ = false := by decide +kernel

theorem C09_safe_FlashProbFIFO_partial (cs ram : Nat) (adm : Adm) (lru : Bool) (n : Nat) (picks : List Nat) (hn : 0 < n) (p : Perms) (ok : Req → Prop) (hok : FlashProb.Fits p ok) :
    Safe FlashProb.onFIFO (FlashProb.initFIFO cs ram adm lru n picks false) (Calls p ok) :=
  (FlashProb.contract (MainCache.fifo (cs - ram)) (Nat.sub_le cs ram) hn ram lru hok).safe (FlashProb.inv_init _ ⟨QInv.init (cs - ram) 0 .none, rfl⟩ rfl adm n picks _)

/-- C57: what a `get` does.  A hit in the RAM updates the RAM only, by its own rule; a hit on the disk updates the disk cache only, by its own
rule: the object does not come back to the RAM.  An admitted miss evicts while there is no room for the object, and then puts it at the recent end of the RAM: only the RAM's least recent objects leave
it, each is written to the disk cache or dropped by the next random number, and the disk cache evicts on its own only when the RAM is empty. -/
theorem C57_get_FlashProbFIFO_partial (cs ram : Nat) (adm : Adm) (lru : Bool) (n : Nat) (picks : List Nat) (hn : 0 < n) (p : Perms) (ok : Req → Prop) (hok : FlashProb.Fits p ok) (ops : List Op) (out : List Bool) (s : FlashProb.State FIFO.State)
    (ho : ∀ op ∈ ops, Calls p ok op) (hr : Reaches FlashProb.onFIFO (FlashProb.initFIFO cs ram adm lru n picks false) ops out s)
    (r : Req) (hor : ok r) :
    (r.id ∈ (cont s.ram.objs).ids → ∃ s', FlashProb.onFIFO.get s r = .ok (true, s') ∧
      cont s'.ram.objs = Flash.hit lru r.id (cont s.ram.objs) ∧ s'.disk = s.disk ∧ s'.picks = s.picks) ∧
    (r.id ∈ s.disk.base.cached.ids → ∃ s', FlashProb.onFIFO.get s r = .ok (true, s') ∧ s'.ram = s.ram ∧ FIFO.algo.find s.disk r true = .ok (true, s'.disk) ∧ s'.picks = s.picks) ∧
    (r.id ∉ (FlashProbFIFO_cached s).ids → admitsBase s.base r = true → ∃ s' ram', FlashProb.onFIFO.get s r = .ok (false, s') ∧ cont s'.ram.objs = (r.id, r.size % u32) :: ram' ∧
      Flash.Drains n (fun d x d' => ∃ next, FIFO.algo.get d ⟨x.1, x.2, next⟩ = .ok (false, d')) (fun d d' => FIFO.algo.evict d r = .ok d')
        (fun v => bytes 0 (v.ram ++ v.disk.base.cached)) r.size cs ⟨cont s.ram.objs, s.disk, s.picks⟩ ⟨ram', s'.disk, s'.picks⟩) := by
  have hi := (FlashProb.contract (MainCache.fifo (cs - ram)) (Nat.sub_le cs ram) hn ram lru hok).reach (FlashProb.inv_init _ ⟨QInv.init (cs - ram) 0 .none, rfl⟩ rfl adm n picks _) ho hr
  obtain ⟨h1, h2, h3⟩ := FlashProb.get_spec (MainCache.fifo (cs - ram)) (Nat.sub_le cs ram) hn hi r (hok r hor)
  refine ⟨h1, h2, fun hm ha => ?_⟩
  obtain ⟨d0, h0, _, h⟩ := h3 hm
  have hq := (FIFO.strong (cs - ram) 0).missQuiet r hi.disk.1 (fun hx => hm ((FlashProb.mem_cached s r.id).2 (Or.inr hx)))
  rw [hq] at h0
  injection h0 with h0
  injection h0 with _ h0
  subst h0
  exact h ha

/-- a hit in the RAM, a hit on the disk, a miss that moves one object to the disk and loses another -/
example : (fun s => ((cont s.ram.objs).ids, s.disk.base.cached.ids)) (after FlashProb.onFIFO (FlashProb.initFIFO 10 4 .none true 2 FlashProb_picks false) [.get ⟨1, 4, -2⟩, .get ⟨2, 3, -2⟩, .get ⟨1, 4, -2⟩]) = ([1, 2], []) := by decide +kernel
example : (fun s => ((cont s.ram.objs).ids, s.disk.base.cached.ids)) (after FlashProb.onFIFO (FlashProb.initFIFO 10 4 .none true 2 FlashProb_picks false) [.get ⟨1, 4, -2⟩, .get ⟨2, 3, -2⟩, .get ⟨3, 8, -2⟩]) = ([3], []) := by decide +kernel
example : (fun s => ((cont s.ram.objs).ids, s.disk.base.cached.ids)) (after FlashProb.onFIFO (FlashProb.initFIFO 10 4 .none true 2 FlashProb_picks false) [.get ⟨1, 3, -2⟩, .get ⟨2, 4, -2⟩, .get ⟨3, 5, -2⟩, .get ⟨1, 3, -2⟩]) = ([3], [1]) := by decide +kernel

/-- C57: what one call of `evict` does. -/
theorem C57_evict_FlashProbFIFO_partial (cs ram : Nat) (adm : Adm) (lru : Bool) (n : Nat) (picks : List Nat) (hn : 0 < n) (p : Perms) (ok : Req → Prop) (hok : FlashProb.Fits p ok) (ops : List Op) (out : List Bool) (s : FlashProb.State FIFO.State)
    (ho : ∀ op ∈ ops, Calls p ok op) (hr : Reaches FlashProb.onFIFO (FlashProb.initFIFO cs ram adm lru n picks false) ops out s)
    (hpos : 0 < bytes 0 (FlashProbFIFO_cached s) ∨ (p.ev = true ∧ FlashProbFIFO_cached s ≠ [])) (r : Req) :
    ∃ s', FlashProb.onFIFO.evict s r = .ok s' ∧
      Flash.Evicts n (fun d x d' => ∃ next, FIFO.algo.get d ⟨x.1, x.2, next⟩ = .ok (false, d')) (fun d d' => FIFO.algo.evict d r = .ok d')
        ⟨cont s.ram.objs, s.disk, s.picks⟩ ⟨cont s'.ram.objs, s'.disk, s'.picks⟩ := by
  have hi := (FlashProb.contract (MainCache.fifo (cs - ram)) (Nat.sub_le cs ram) hn ram lru hok).reach (FlashProb.inv_init _ ⟨QInv.init (cs - ram) 0 .none, rfl⟩ rfl adm n picks _) ho hr
  have hb : FlashProb.Busy (fun d : FIFO.State => d.base.cached) s := by
    rcases hpos with h | ⟨h1, h2⟩
    · rw [bytes_eq_charge] at h; exact FlashProb.busy_of_charge h
    · exact hi.busy h1 h2
  obtain ⟨s', k1, _, _, _, _, k6, _⟩ := FlashProb.evict_spec (MainCache.fifo (cs - ram)) (Nat.sub_le cs ram) hn hi hb r
  exact ⟨s', k1, k6⟩

/-- written, lost, evicted from the disk -/
example : (fun s => ((cont s.ram.objs).ids, s.disk.base.cached.ids)) (after FlashProb.onFIFO (FlashProb.initFIFO 10 4 .none true 2 FlashProb_picks false) [.get ⟨1, 4, -2⟩, .get ⟨2, 3, -2⟩, .evict ⟨0, 1, -2⟩]) = ([2], [1]) := by decide +kernel
example : (fun s => ((cont s.ram.objs).ids, s.disk.base.cached.ids)) (after FlashProb.onFIFO (FlashProb.initFIFO 10 4 .none true 2 FlashProb_picks false) [.get ⟨1, 4, -2⟩, .get ⟨2, 3, -2⟩, .evict ⟨0, 1, -2⟩, .evict ⟨0, 1, -2⟩]) = ([], [1]) := by decide +kernel
example : (fun s => ((cont s.ram.objs).ids, s.disk.base.cached.ids)) (after FlashProb.onFIFO (FlashProb.initFIFO 10 4 .none true 2 FlashProb_picks false) [.get ⟨1, 4, -2⟩, .get ⟨2, 3, -2⟩, .evict ⟨0, 1, -2⟩, .evict ⟨0, 1, -2⟩, .evict ⟨0, 1, -2⟩]) = ([], []) := by decide +kernel

/-- C57: no object is in the RAM and on the disk at the same time. -/
theorem C57_onePlace_FlashProbFIFO_partial (cs ram : Nat) (adm : Adm) (lru : Bool) (n : Nat) (picks : List Nat) (hn : 0 < n) (p : Perms) (ok : Req → Prop) (hok : FlashProb.Fits p ok) (ops : List Op) (out : List Bool) (s : FlashProb.State FIFO.State)
    (ho : ∀ op ∈ ops, Calls p ok op) (hr : Reaches FlashProb.onFIFO (FlashProb.initFIFO cs ram adm lru n picks false) ops out s) :
    ((cont s.ram.objs).ids ++ s.disk.base.cached.ids).Nodup := by
  have := ((FlashProb.contract (MainCache.fifo (cs - ram)) (Nat.sub_le cs ram) hn ram lru hok).reach (FlashProb.inv_init _ ⟨QInv.init (cs - ram) 0 .none, rfl⟩ rfl adm n picks _) ho hr).nodup (MainCache.fifo (cs - ram))
  rw [FlashProb.cached, Contents.ids, List.map_append] at this
  exact this

/-! ## Disk cache Clock -/

/-- what is cached: RAM and disk -/
abbrev FlashProbClock_cached (s : FlashProb.State Clock.State) : Contents := FlashProb.cached (fun d => d.base.cached) s

def FlashProbClock_demo : FlashProb.State Clock.State := after FlashProb.onClock (FlashProb.initClock 10 4 .none true 2 FlashProb_picks false) FlashProb_ops

/-- the demo runs without fault -/
example : (answers FlashProb.onClock (FlashProb.initClock 10 4 .none true 2 FlashProb_picks false) FlashProb_ops).isSome = true := by decide +kernel

theorem C01_capacity_FlashProbClock_partial (cs ram : Nat) (adm : Adm) (lru : Bool) (n : Nat) (picks : List Nat) (hn : 0 < n) (p : Perms) (ok : Req → Prop) (hok : FlashProb.Fits p ok) :
    Capacity FlashProb.onClock (FlashProb.initClock cs ram adm lru n picks false) (Calls p ok) cs :=
  (FlashProb.contract (MainCache.clock (cs - ram) 1) (Nat.sub_le cs ram) hn ram lru hok).capacity (FlashProb.inv_init _ ⟨Clock.inv_init (cs - ram) 0 1 .none, rfl⟩ rfl adm n picks _)

example : FlashProb.onClock.occ FlashProbClock_demo > 5 := by decide +kernel

theorem C02_accounting_FlashProbClock_partial (cs ram : Nat) (adm : Adm) (lru : Bool) (n : Nat) (picks : List Nat) (hn : 0 < n) (p : Perms) (ok : Req → Prop) (hok : FlashProb.Fits p ok) :
    Accounting FlashProb.onClock FlashProbClock_cached (FlashProb.initClock cs ram adm lru n picks false) (Calls p ok) 0 :=
  (FlashProb.contract (MainCache.clock (cs - ram) 1) (Nat.sub_le cs ram) hn ram lru hok).accounting (FlashProb.inv_init _ ⟨Clock.inv_init (cs - ram) 0 1 .none, rfl⟩ rfl adm n picks _)

example : FlashProb.onClock.nObj FlashProbClock_demo > 2 ∧ FlashProbClock_demo.disk.base.nObj > 0 := by decide +kernel

theorem C03_hitIffCached_FlashProbClock_partial (cs ram : Nat) (adm : Adm) (lru : Bool) (n : Nat) (picks : List Nat) (hn : 0 < n) (p : Perms) (ok : Req → Prop) (hok : FlashProb.Fits p ok) :
    HitIffCached FlashProb.onClock FlashProbClock_cached (FlashProb.initClock cs ram adm lru n picks false) (Calls p ok) :=
  (FlashProb.contract (MainCache.clock (cs - ram) 1) (Nat.sub_le cs ram) hn ram lru hok).hitIffCached (FlashProb.inv_init _ ⟨Clock.inv_init (cs - ram) 0 1 .none, rfl⟩ rfl adm n picks _)

theorem C04_noPhantom_FlashProbClock_partial (cs ram : Nat) (adm : Adm) (lru : Bool) (n : Nat) (picks : List Nat) (hn : 0 < n) (p : Perms) (ok : Req → Prop) (hok : FlashProb.Fits p ok) :
    NoPhantom FlashProb.onClock FlashProbClock_cached (FlashProb.initClock cs ram adm lru n picks false) (Calls p ok) :=
  (FlashProb.contract (MainCache.clock (cs - ram) 1) (Nat.sub_le cs ram) hn ram lru hok).noPhantom (FlashProb.inv_init _ ⟨Clock.inv_init (cs - ram) 0 1 .none, rfl⟩ rfl adm n picks _) (by rfl) (fun _ s s' b id hi he => by
    obtain ⟨s'', k1, _, k3⟩ := FlashProb.remove_spec (MainCache.clock (cs - ram) 1) hi id
    rw [show (FlashProb.algo Clock.algo).remove s id = FlashProb.remove Clock.algo s id from rfl, k1] at he
    cases he
    intro hx
    have := QDLP.ids_sub k3.subperm hx
    simp at this)

theorem C04_addsOnlyRequested_FlashProbClock_partial (cs ram : Nat) (adm : Adm) (lru : Bool) (n : Nat) (picks : List Nat) (hn : 0 < n) (p : Perms) (ok : Req → Prop) (hok : FlashProb.Fits p ok) :
    AddsOnlyRequested FlashProb.onClock FlashProbClock_cached (FlashProb.initClock cs ram adm lru n picks false) (Calls p ok) :=
  (FlashProb.contract (MainCache.clock (cs - ram) 1) (Nat.sub_le cs ram) hn ram lru hok).addsOnlyRequested (FlashProb.inv_init _ ⟨Clock.inv_init (cs - ram) 0 1 .none, rfl⟩ rfl adm n picks _)

theorem C05_admittedMissCached_FlashProbClock_partial (cs ram : Nat) (adm : Adm) (lru : Bool) (n : Nat) (picks : List Nat) (hn : 0 < n) (p : Perms) (ok : Req → Prop) (hok : FlashProb.Fits p ok) :
    AdmittedMissCached FlashProb.onClock FlashProbClock_cached (fun s r => admitsBase s.base r) (FlashProb.initClock cs ram adm lru n picks false) (Calls p ok) := by
  intro ops out s ho hr r hor hm ha
  have hi := (FlashProb.contract (MainCache.clock (cs - ram) 1) (Nat.sub_le cs ram) hn ram lru hok).reach (FlashProb.inv_init _ ⟨Clock.inv_init (cs - ram) 0 1 .none, rfl⟩ rfl adm n picks _) ho hr
  obtain ⟨d0, _, _, h⟩ := (FlashProb.get_spec (MainCache.clock (cs - ram) 1) (Nat.sub_le cs ram) hn hi r (hok r hor)).2.2 hm
  obtain ⟨s', l, h1, h2, _⟩ := h ha
  refine ⟨s', h1, ?_⟩
  have h2' : cont s'.ram.objs = (r.id, r.size % u32) :: l := h2
  simp [FlashProbClock_cached, FlashProb.cached, h2']

/-- an admitted miss that evicts -/
example : 11 ∉ (FlashProbClock_cached FlashProbClock_demo).ids ∧ admitsBase FlashProbClock_demo.base ⟨11, 9, -2⟩ = true := by decide +kernel

theorem C07_removeExact_FlashProbClock_partial (cs ram : Nat) (adm : Adm) (lru : Bool) (n : Nat) (picks : List Nat) (hn : 0 < n) (p : Perms) (ok : Req → Prop) (hok : FlashProb.Fits p ok) :
    RemoveExact FlashProb.onClock FlashProbClock_cached (FlashProb.initClock cs ram adm lru n picks false) (Calls p ok) := by
  intro ops out s ho hr id
  have hi := (FlashProb.contract (MainCache.clock (cs - ram) 1) (Nat.sub_le cs ram) hn ram lru hok).reach (FlashProb.inv_init _ ⟨Clock.inv_init (cs - ram) 0 1 .none, rfl⟩ rfl adm n picks _) ho hr
  obtain ⟨s', k1, _, k3⟩ := FlashProb.remove_spec (MainCache.clock (cs - ram) 1) hi id
  exact ⟨s', k1, k3⟩

/-- A request that is not admitted leaves both parts unchanged (order, frequencies and counters included), and draws no random number. -/
theorem C08_rejectQuiet_FlashProbClock_partial (cs ram : Nat) (adm : Adm) (lru : Bool) (n : Nat) (picks : List Nat) (hn : 0 < n) (p : Perms) (ok : Req → Prop) (hok : FlashProb.Fits p ok) :
    RejectQuiet FlashProb.onClock FlashProbClock_cached (fun s r => admitsBase s.base r) (fun s => (s.ram, s.disk, s.picks)) (FlashProb.initClock cs ram adm lru n picks false) (Calls p ok) := by
  intro ops out s ho hr r hor hm ha
  have hi := (FlashProb.contract (MainCache.clock (cs - ram) 1) (Nat.sub_le cs ram) hn ram lru hok).reach (FlashProb.inv_init _ ⟨Clock.inv_init (cs - ram) 0 1 .none, rfl⟩ rfl adm n picks _) ho hr
  obtain ⟨d0, h0, h, _⟩ := (FlashProb.get_spec (MainCache.clock (cs - ram) 1) (Nat.sub_le cs ram) hn hi r (hok r hor)).2.2 hm
  obtain ⟨s', h1, h2, h3, h4⟩ := h ha
  refine ⟨s', h1, ?_⟩
  have hq := (Clock.strong (cs - ram) 0 1).missQuiet r hi.disk.1 (fun hx => hm ((FlashProb.mem_cached s r.id).2 (Or.inr hx)))
  rw [hq] at h0
  injection h0 with h0
  injection h0 with _ h0
  simp only [h2, h3, h4, ← h0]

/-- a rejected request -/
example : 7 ∉ (FlashProbClock_cached FlashProbClock_demo).ids ∧ admitsBase FlashProbClock_demo.base ⟨7, 30, -2⟩ = false := by decide +kernel

theorem C09_safe_FlashProbClock_partial (cs ram : Nat) (adm : Adm) (lru : Bool) (n : Nat) (picks : List Nat) (hn : 0 < n) (p : Perms) (ok : Req → Prop) (hok : FlashProb.Fits p ok) :
    Safe FlashProb.onClock (FlashProb.initClock cs ram adm lru n picks false) (Calls p ok) :=
  (FlashProb.contract (MainCache.clock (cs - ram) 1) (Nat.sub_le cs ram) hn ram lru hok).safe (FlashProb.inv_init _ ⟨Clock.inv_init (cs - ram) 0 1 .none, rfl⟩ rfl adm n picks _)

/-- C57: what a `get` does.  A hit in the RAM updates the RAM only, by its own rule; a hit on the disk updates the disk cache only, by its own
rule: the object does not come back to the RAM.  An admitted miss evicts while there is no room for the object, and then puts it at the recent end of the RAM: only the RAM's least recent objects leave
it, each is written to the disk cache or dropped by the next random number, and the disk cache evicts on its own only when the RAM is empty. -/
theorem C57_get_FlashProbClock_partial (cs ram : Nat) (adm : Adm) (lru : Bool) (n : Nat) (picks : List Nat) (hn : 0 < n) (p : Perms) (ok : Req → Prop) (hok : FlashProb.Fits p ok) (ops : List Op) (out : List Bool) (s : FlashProb.State Clock.State)
    (ho : ∀ op ∈ ops, Calls p ok op) (hr : Reaches FlashProb.onClock (FlashProb.initClock cs ram adm lru n picks false) ops out s)
    (r : Req) (hor : ok r) :
    (r.id ∈ (cont s.ram.objs).ids → ∃ s', FlashProb.onClock.get s r = .ok (true, s') ∧
      cont s'.ram.objs = Flash.hit lru r.id (cont s.ram.objs) ∧ s'.disk = s.disk ∧ s'.picks = s.picks) ∧
    (r.id ∈ s.disk.base.cached.ids → ∃ s', FlashProb.onClock.get s r = .ok (true, s') ∧ s'.ram = s.ram ∧ Clock.algo.find s.disk r true = .ok (true, s'.disk) ∧ s'.picks = s.picks) ∧
    (r.id ∉ (FlashProbClock_cached s).ids → admitsBase s.base r = true → ∃ s' ram', FlashProb.onClock.get s r = .ok (false, s') ∧ cont s'.ram.objs = (r.id, r.size % u32) :: ram' ∧
      Flash.Drains n (fun d x d' => ∃ next, Clock.algo.get d ⟨x.1, x.2, next⟩ = .ok (false, d')) (fun d d' => Clock.algo.evict d r = .ok d')
        (fun v => bytes 0 (v.ram ++ v.disk.base.cached)) r.size cs ⟨cont s.ram.objs, s.disk, s.picks⟩ ⟨ram', s'.disk, s'.picks⟩) := by
  have hi := (FlashProb.contract (MainCache.clock (cs - ram) 1) (Nat.sub_le cs ram) hn ram lru hok).reach (FlashProb.inv_init _ ⟨Clock.inv_init (cs - ram) 0 1 .none, rfl⟩ rfl adm n picks _) ho hr
  obtain ⟨h1, h2, h3⟩ := FlashProb.get_spec (MainCache.clock (cs - ram) 1) (Nat.sub_le cs ram) hn hi r (hok r hor)
  refine ⟨h1, h2, fun hm ha => ?_⟩
  obtain ⟨d0, h0, _, h⟩ := h3 hm
  have hq := (Clock.strong (cs - ram) 0 1).missQuiet r hi.disk.1 (fun hx => hm ((FlashProb.mem_cached s r.id).2 (Or.inr hx)))
  rw [hq] at h0
  injection h0 with h0
  injection h0 with _ h0
  subst h0
  exact h ha

/-- a hit in the RAM, a hit on the disk, a miss that moves one object to the disk and loses another -/
example : (fun s => ((cont s.ram.objs).ids, s.disk.base.cached.ids)) (after FlashProb.onClock (FlashProb.initClock 10 4 .none true 2 FlashProb_picks false) [.get ⟨1, 4, -2⟩, .get ⟨2, 3, -2⟩, .get ⟨1, 4, -2⟩]) = ([1, 2], []) := by decide +kernel
example : (fun s => ((cont s.ram.objs).ids, s.disk.base.cached.ids)) (after FlashProb.onClock (FlashProb.initClock 10 4 .none true 2 FlashProb_picks false) [.get ⟨1, 4, -2⟩, .get ⟨2, 3, -2⟩, .get ⟨3, 8, -2⟩]) = ([3], []) := by decide +kernel
example : (fun s => ((cont s.ram.objs).ids, s.disk.base.cached.ids)) (after FlashProb.onClock (FlashProb.initClock 10 4 .none true 2 FlashProb_picks false) [.get ⟨1, 3, -2⟩, .get ⟨2, 4, -2⟩, .get ⟨3, 5, -2⟩, .get ⟨1, 3, -2⟩]) = ([3], [1]) := by decide +kernel

/-- C57: what one call of `evict` does. -/
theorem C57_evict_FlashProbClock_partial (cs ram : Nat) (adm : Adm) (lru : Bool) (n : Nat) (picks : List Nat) (hn : 0 < n) (p : Perms) (ok : Req → Prop) (hok : FlashProb.Fits p ok) (ops : List Op) (out : List Bool) (s : FlashProb.State Clock.State)
    (ho : ∀ op ∈ ops, Calls p ok op) (hr : Reaches FlashProb.onClock (FlashProb.initClock cs ram adm lru n picks false) ops out s)
    (hpos : 0 < bytes 0 (FlashProbClock_cached s) ∨ (p.ev = true ∧ FlashProbClock_cached s ≠ [])) (r : Req) :
    ∃ s', FlashProb.onClock.evict s r = .ok s' ∧
      Flash.Evicts n (fun d x d' => ∃ next, Clock.algo.get d ⟨x.1, x.2, next⟩ = .ok (false, d')) (fun d d' => Clock.algo.evict d r = .ok d')
        ⟨cont s.ram.objs, s.disk, s.picks⟩ ⟨cont s'.ram.objs, s'.disk, s'.picks⟩ := by
  have hi := (FlashProb.contract (MainCache.clock (cs - ram) 1) (Nat.sub_le cs ram) hn ram lru hok).reach (FlashProb.inv_init _ ⟨Clock.inv_init (cs - ram) 0 1 .none, rfl⟩ rfl adm n picks _) ho hr
  have hb : FlashProb.Busy (fun d : Clock.State => d.base.cached) s := by
    rcases hpos with h | ⟨h1, h2⟩
    · rw [bytes_eq_charge] at h; exact FlashProb.busy_of_charge h
    · exact hi.busy h1 h2
  obtain ⟨s', k1, _, _, _, _, k6, _⟩ := FlashProb.evict_spec (MainCache.clock (cs - ram) 1) (Nat.sub_le cs ram) hn hi hb r
  exact ⟨s', k1, k6⟩

/-- written, lost, evicted from the disk -/
example : (fun s => ((cont s.ram.objs).ids, s.disk.base.cached.ids)) (after FlashProb.onClock (FlashProb.initClock 10 4 .none true 2 FlashProb_picks false) [.get ⟨1, 4, -2⟩, .get ⟨2, 3, -2⟩, .evict ⟨0, 1, -2⟩]) = ([2], [1]) := by decide +kernel
example : (fun s => ((cont s.ram.objs).ids, s.disk.base.cached.ids)) (after FlashProb.onClock (FlashProb.initClock 10 4 .none true 2 FlashProb_picks false) [.get ⟨1, 4, -2⟩, .get ⟨2, 3, -2⟩, .evict ⟨0, 1, -2⟩, .evict ⟨0, 1, -2⟩]) = ([], [1]) := by decide +kernel
example : (fun s => ((cont s.ram.objs).ids, s.disk.base.cached.ids)) (after FlashProb.onClock (FlashProb.initClock 10 4 .none true 2 FlashProb_picks false) [.get ⟨1, 4, -2⟩, .get ⟨2, 3, -2⟩, .evict ⟨0, 1, -2⟩, .evict ⟨0, 1, -2⟩, .evict ⟨0, 1, -2⟩]) = ([], []) := by decide +kernel

/-- C57: no object is in the RAM and on the disk at the same time. -/
theorem C57_onePlace_FlashProbClock_partial (cs ram : Nat) (adm : Adm) (lru : Bool) (n : Nat) (picks : List Nat) (hn : 0 < n) (p : Perms) (ok : Req → Prop) (hok : FlashProb.Fits p ok) (ops : List Op) (out : List Bool) (s : FlashProb.State Clock.State)
    (ho : ∀ op ∈ ops, Calls p ok op) (hr : Reaches FlashProb.onClock (FlashProb.initClock cs ram adm lru n picks false) ops out s) :
    ((cont s.ram.objs).ids ++ s.disk.base.cached.ids).Nodup := by
  have := ((FlashProb.contract (MainCache.clock (cs - ram) 1) (Nat.sub_le cs ram) hn ram lru hok).reach (FlashProb.inv_init _ ⟨Clock.inv_init (cs - ram) 0 1 .none, rfl⟩ rfl adm n picks _) ho hr).nodup (MainCache.clock (cs - ram) 1)
  rw [FlashProb.cached, Contents.ids, List.map_append] at this
  exact this

/-! ## What goes wrong -/

/-- If reading freed memory is an error, the first object written to the disk crashes the cache: line 306 reads `obj->obj_size` of the object line 301 freed. -/
theorem C09_useAfterFree_FlashProb_fails :
    ¬ Safe FlashProb.onFIFO (FlashProb.initFIFO 10 4 .none true 2 FlashProb_picks true) (Calls { ev := false } (fun _ => True)) := by
  intro h
  obtain ⟨out, s, h⟩ := h [.get ⟨1, 4, -2⟩, .get ⟨2, 8, -2⟩] (by simp [Calls])
  have : faultOf FlashProb.onFIFO (FlashProb.initFIFO 10 4 .none true 2 FlashProb_picks true) [.get ⟨1, 4, -2⟩, .get ⟨2, 8, -2⟩] = some .useAfterFree := by decide +kernel
  unfold faultOf at this
  rw [show FlashProb.onFIFO.run _ _ = _ from h] at this
  simp at this

/-- With `disk-admit-prob` above 1, `inv_prob` is 0 and the first eviction divides by it. -/
theorem C09_probAboveOne_FlashProb_fails :
    ¬ Safe FlashProb.onFIFO (FlashProb.initFIFO 10 4 .none true 0 FlashProb_picks false) (Calls { ev := false } (fun _ => True)) := by
  intro h
  obtain ⟨out, s, h⟩ := h [.get ⟨1, 4, -2⟩, .get ⟨2, 8, -2⟩] (by simp [Calls])
  have : faultOf FlashProb.onFIFO (FlashProb.initFIFO 10 4 .none true 0 FlashProb_picks false) [.get ⟨1, 4, -2⟩, .get ⟨2, 8, -2⟩] = some .divZero := by decide +kernel
  unfold faultOf at this
  rw [show FlashProb.onFIFO.run _ _ = _ from h] at this
  simp at this

/-- With empty objects a client's `evict` call can crash: the RAM holds no bytes, although it holds an object, so the empty disk cache is asked to evict. -/
theorem C09_emptyObjects_FlashProb_fails :
    ¬ Safe FlashProb.onFIFO (FlashProb.initFIFO 10 4 .none true 2 FlashProb_picks false) (Calls {} (fun _ => True)) := by
  intro h
  obtain ⟨out, s, h⟩ := h [.get ⟨1, 0, -2⟩, .evict ⟨0, 0, -2⟩] (by simp [Calls])
  have : faultOf FlashProb.onFIFO (FlashProb.initFIFO 10 4 .none true 2 FlashProb_picks false) [.get ⟨1, 0, -2⟩, .evict ⟨0, 0, -2⟩] = some .nullDeref := by decide +kernel
  unfold faultOf at this
  rw [show FlashProb.onFIFO.run _ _ = _ from h] at this
  simp at this

/-- An eviction can drop more than was needed: writing object 3 to the disk evicts objects 1 and 2 there, although the new object would have fitted next to 2. -/
theorem C06_evictOnDemand_FlashProb_fails :
    ¬ EvictOnDemand FlashProb.onFIFO FlashProbFIFO_cached (FlashProb.initFIFO 15 5 .none true 1 [] false) (Calls {} (fun r => 0 < r.size % u32)) 15 0 := by
  intro h
  have hr := reaches_after (A := FlashProb.onFIFO) (s0 := FlashProb.initFIFO 15 5 .none true 1 [] false)
    (ops := [.get ⟨1, 1, -2⟩, .get ⟨2, 9, -2⟩, .evict ⟨0, 1, -2⟩, .evict ⟨0, 1, -2⟩, .get ⟨3, 2, -2⟩]) (out := [false, false, true, true, false]) (by decide +kernel)
  obtain ⟨_, h2⟩ := h _ _ _ (by simp [Calls, u32]) hr ⟨4, 4, -2⟩ false _ (by simp [Calls, u32]) (get_after (by decide +kernel))
  obtain ⟨victims, kept, hp, hk, hv⟩ := h2 rfl
  have e1 : FlashProbFIFO_cached (after FlashProb.onFIFO (FlashProb.initFIFO 15 5 .none true 1 [] false)
    [.get ⟨1, 1, -2⟩, .get ⟨2, 9, -2⟩, .evict ⟨0, 1, -2⟩, .evict ⟨0, 1, -2⟩, .get ⟨3, 2, -2⟩]) = [(3, 2), (2, 9), (1, 1)] := by decide +kernel
  have e2 : FlashProbFIFO_cached (after FlashProb.onFIFO (after FlashProb.onFIFO (FlashProb.initFIFO 15 5 .none true 1 [] false)
    [.get ⟨1, 1, -2⟩, .get ⟨2, 9, -2⟩, .evict ⟨0, 1, -2⟩, .evict ⟨0, 1, -2⟩, .get ⟨3, 2, -2⟩]) [.get ⟨4, 4, -2⟩]) = [(4, 4), (3, 2)] := by decide +kernel
  rw [e1] at hp
  rw [e2] at hk
  have hkept : kept.Perm [(3, 2)] := by
    rcases hk with hk | hk
    · exfalso
      have h4 : ((4, 4) : ObjId × Nat) ∈ [((3, 2) : ObjId × Nat), (2, 9), (1, 1)] := hp.symm.subset (List.mem_append_right _ (hk.subset (by simp)))
      simp at h4
    · exact ((List.perm_cons (4, 4)).1 hk).symm
  have hbk := bytes_eq_charge 0 kept
  rw [charge_perm hkept] at hbk
  have hlen := hp.length_eq
  rw [List.length_append, hkept.length_eq] at hlen
  rcases List.eq_nil_or_concat victims with rfl | ⟨vs, v, rfl⟩
  · simp at hlen
  · have h1 := hv vs v (by simp)
    have hvm : v ∈ [((3, 2) : ObjId × Nat), (2, 9), (1, 1)] := hp.symm.subset (by simp)
    have hv9 : v.2 ≤ 9 := by
      simp only [List.mem_cons, List.not_mem_nil, or_false] at hvm
      rcases hvm with rfl | rfl | rfl <;> simp
    have h3 : bytes 0 (v :: kept) = v.2 + bytes 0 kept := by simp [bytes]
    rw [h3, hbk] at h1
    simp [charge] at h1
    omega

/-- C57: the RAM does not stay within its share of the cache: objects leave it only when RAM and disk together are full. -/
theorem C57_ramSize_FlashProb_fails :
    ¬ ∀ (ops : List Op) (out : List Bool) (s : FlashProb.State FIFO.State), (∀ op ∈ ops, Calls { ev := false } (fun _ => True) op) →
      Reaches FlashProb.onFIFO (FlashProb.initFIFO 20 1 .none true 5 [] false) ops out s → bytes 0 (cont s.ram.objs) ≤ 1 := by
  intro h
  have := h _ _ _ (by simp [Calls]) (reaches_after (A := FlashProb.onFIFO) (s0 := FlashProb.initFIFO 20 1 .none true 5 [] false)
    (ops := [.get ⟨1, 12, -2⟩, .get ⟨2, 8, -2⟩]) (out := [false, false]) (by decide +kernel))
  have e : bytes 0 (cont (after FlashProb.onFIFO (FlashProb.initFIFO 20 1 .none true 5 [] false) [.get ⟨1, 12, -2⟩, .get ⟨2, 8, -2⟩]).ram.objs) = 20 := by decide +kernel
  rw [e] at this
  omega

end Verif.Props
