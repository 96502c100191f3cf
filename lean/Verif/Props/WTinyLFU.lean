import Verif.Proof.WTinyLFUMains
import Verif.Props.Demo
/-!
# Properties of W-TinyLFU (libCacheSim/cache/eviction/WTinyLFU.c)

For every cache size `cs`, every size `ms` of the main cache (the window has the rest), every admission policy, every sketch of at least one counter, any hash functions
`H`, and LRU, FIFO or SLRU (the default) as main cache.

The theorems named `_partial` assume that `consider_obj_metadata` is off, that a client who calls `evict` requests no empty object and that a client who calls `insert` inserts no object larger than the main cache admits (`WTinyLFU.Fits`);
with SLRU, that the client does not call `remove`, which SLRU does not support.  Without these the cache crashes: the theorems named `_fails`.
-/

namespace Verif.Props
open Verif Verif.Spec
set_option linter.unusedVariables false
set_option maxRecDepth 20000

/-- a client that only calls `get`, `find` and `remove`, with any objects -/
theorem WTinyLFU_fits_simulator (lim : Nat) (r : Req) : WTinyLFU.Fits lim { ev := false, ins := false } r := ⟨by simp, by simp⟩

/-- a client that calls everything -/
theorem WTinyLFU_fits_all : WTinyLFU.Fits 6 {} ⟨1, 4, -2⟩ := by simp [WTinyLFU.Fits, u32]

/-- a demo run -/
def WTinyLFU_ops : List Op := [.get ⟨1, 3, -2⟩, .get ⟨2, 3, -2⟩, .get ⟨1, 3, -2⟩, .get ⟨3, 3, -2⟩, .get ⟨4, 2, -2⟩, .find ⟨3, 3, -2⟩ false,
  .find ⟨1, 3, -2⟩ true, .get ⟨7, 5, -2⟩, .get ⟨2, 3, -2⟩, .get ⟨1, 3, -2⟩, .get ⟨5, 1, -2⟩,
  .get ⟨6, 1, -2⟩, .get ⟨6, 1, -2⟩, .evict ⟨0, 1, -2⟩, .insert ⟨8, 1, -2⟩, .get ⟨9, 3, -2⟩, .get ⟨3, 3, -2⟩]

theorem WTinyLFU_ops_calls (lim : Nat) (h : 5 ≤ lim) : ∀ op ∈ WTinyLFU_ops, Calls { rem := false } (WTinyLFU.Fits lim { rem := false }) op := by
  intro op hop
  simp only [WTinyLFU_ops, List.mem_cons, List.not_mem_nil, or_false] at hop
  rcases hop with rfl | rfl | rfl | rfl | rfl | rfl | rfl | rfl | rfl | rfl | rfl | rfl | rfl | rfl | rfl | rfl | rfl <;> simp [Calls, WTinyLFU.Fits, u32] <;> omega

/-- hash functions for the examples -/
def WTinyLFU_H : CBF.Hashes ObjId := ⟨fun k => k, fun k => 2 * k + 1⟩

/-! ## Main cache LRU -/

/-- what is cached: window and main cache -/
abbrev WTinyLFULRU_cached (s : WTinyLFU.State LRU.State) : Contents := WTinyLFU.cached (fun m => m.base.cached) s

def WTinyLFULRU_demo : WTinyLFU.State LRU.State := after (WTinyLFU.onLRU WTinyLFU_H) (WTinyLFU.initLRU 14 9 .none 64 2) WTinyLFU_ops

/-- the demo runs without fault -/
example : (answers (WTinyLFU.onLRU WTinyLFU_H) (WTinyLFU.initLRU 14 9 .none 64 2) WTinyLFU_ops).isSome = true := by decide +kernel

theorem C01_capacity_WTinyLFULRU_partial (H : CBF.Hashes ObjId) (cs ms : Nat) (adm : Adm) (num hs : Nat) (hn : 0 < num) (p : Perms) :
    Capacity (WTinyLFU.onLRU H) (WTinyLFU.initLRU cs ms adm num hs) (Calls p (WTinyLFU.Fits (ms) p)) cs :=
  (WTinyLFU.contract (H := H) (WTinyLFU.mainLRU cs ms) (cs - ms) (p := p) (fun _ => trivial)).capacity (WTinyLFU.inv_init _ (WTinyLFU.QMain.init ms) rfl cs ms adm hn hs _)

example : (WTinyLFU.onLRU WTinyLFU_H).occ WTinyLFULRU_demo > 9 := by decide +kernel

theorem C02_accounting_WTinyLFULRU_partial (H : CBF.Hashes ObjId) (cs ms : Nat) (adm : Adm) (num hs : Nat) (hn : 0 < num) (p : Perms) :
    Accounting (WTinyLFU.onLRU H) WTinyLFULRU_cached (WTinyLFU.initLRU cs ms adm num hs) (Calls p (WTinyLFU.Fits (ms) p)) 0 :=
  (WTinyLFU.contract (H := H) (WTinyLFU.mainLRU cs ms) (cs - ms) (p := p) (fun _ => trivial)).accounting (WTinyLFU.inv_init _ (WTinyLFU.QMain.init ms) rfl cs ms adm hn hs _)

example : (WTinyLFU.onLRU WTinyLFU_H).nObj WTinyLFULRU_demo > 2 ∧ WTinyLFULRU_demo.main.base.nObj > 0 ∧ WTinyLFULRU_demo.win.base.nObj > 0 := by decide +kernel

theorem C03_hitIffCached_WTinyLFULRU_partial (H : CBF.Hashes ObjId) (cs ms : Nat) (adm : Adm) (num hs : Nat) (hn : 0 < num) (p : Perms) :
    HitIffCached (WTinyLFU.onLRU H) WTinyLFULRU_cached (WTinyLFU.initLRU cs ms adm num hs) (Calls p (WTinyLFU.Fits (ms) p)) :=
  (WTinyLFU.contract (H := H) (WTinyLFU.mainLRU cs ms) (cs - ms) (p := p) (fun _ => trivial)).hitIffCached (WTinyLFU.inv_init _ (WTinyLFU.QMain.init ms) rfl cs ms adm hn hs _)

theorem C04_noPhantom_WTinyLFULRU_partial (H : CBF.Hashes ObjId) (cs ms : Nat) (adm : Adm) (num hs : Nat) (hn : 0 < num) (p : Perms) :
    NoPhantom (WTinyLFU.onLRU H) WTinyLFULRU_cached (WTinyLFU.initLRU cs ms adm num hs) (Calls p (WTinyLFU.Fits (ms) p)) :=
  (WTinyLFU.contract (H := H) (WTinyLFU.mainLRU cs ms) (cs - ms) (p := p) (fun _ => trivial)).noPhantom (WTinyLFU.inv_init _ (WTinyLFU.QMain.init ms) rfl cs ms adm hn hs _) (by rfl) (fun _ s s' b id hi he => by
    obtain ⟨s'', k1, _, k3, _⟩ := WTinyLFU.remove_spec (WTinyLFU.mainLRU cs ms) trivial hi id
    rw [show (WTinyLFU.algo H LRU.algo LRU.toEvict).remove s id = WTinyLFU.remove LRU.algo s id from rfl, k1] at he
    cases he
    intro hx
    have := QDLP.ids_sub k3.subperm hx
    simp at this)

theorem C04_addsOnlyRequested_WTinyLFULRU_partial (H : CBF.Hashes ObjId) (cs ms : Nat) (adm : Adm) (num hs : Nat) (hn : 0 < num) (p : Perms) :
    AddsOnlyRequested (WTinyLFU.onLRU H) WTinyLFULRU_cached (WTinyLFU.initLRU cs ms adm num hs) (Calls p (WTinyLFU.Fits (ms) p)) :=
  (WTinyLFU.contract (H := H) (WTinyLFU.mainLRU cs ms) (cs - ms) (p := p) (fun _ => trivial)).addsOnlyRequested (WTinyLFU.inv_init _ (WTinyLFU.QMain.init ms) rfl cs ms adm hn hs _)

theorem C05_admittedMissCached_WTinyLFULRU_partial (H : CBF.Hashes ObjId) (cs ms : Nat) (adm : Adm) (num hs : Nat) (hn : 0 < num) (p : Perms) :
    AdmittedMissCached (WTinyLFU.onLRU H) WTinyLFULRU_cached (fun s r => admitsBase s.base r && decide (r.size ≤ cs - ms) && decide (r.size ≤ ms)) (WTinyLFU.initLRU cs ms adm num hs) (Calls p (WTinyLFU.Fits (ms) p)) := by
  intro ops out s ho hr r hor hm ha
  have hi := (WTinyLFU.contract (H := H) (WTinyLFU.mainLRU cs ms) (cs - ms) (p := p) (fun _ => trivial)).reach (WTinyLFU.inv_init _ (WTinyLFU.QMain.init ms) rfl cs ms adm hn hs _) ho hr
  obtain ⟨s', w, k, h1, h2, _⟩ := (WTinyLFU.get_spec (H := H) (WTinyLFU.mainLRU cs ms) hi r hor.2).2.2.2 hm ha
  refine ⟨s', h1, ?_⟩
  simp [WTinyLFULRU_cached, WTinyLFU.cached, h2]

/-- an admitted miss that evicts -/
example : 11 ∉ (WTinyLFULRU_cached WTinyLFULRU_demo).ids ∧ (WTinyLFU.onLRU WTinyLFU_H).occ WTinyLFULRU_demo + 5 > 14 := by decide +kernel

theorem C07_removeExact_WTinyLFULRU_partial (H : CBF.Hashes ObjId) (cs ms : Nat) (adm : Adm) (num hs : Nat) (hn : 0 < num) (p : Perms) :
    RemoveExact (WTinyLFU.onLRU H) WTinyLFULRU_cached (WTinyLFU.initLRU cs ms adm num hs) (Calls p (WTinyLFU.Fits (ms) p)) := by
  intro ops out s ho hr id
  have hi := (WTinyLFU.contract (H := H) (WTinyLFU.mainLRU cs ms) (cs - ms) (p := p) (fun _ => trivial)).reach (WTinyLFU.inv_init _ (WTinyLFU.QMain.init ms) rfl cs ms adm hn hs _) ho hr
  obtain ⟨s', k1, _, k3, _⟩ := WTinyLFU.remove_spec (WTinyLFU.mainLRU cs ms) trivial hi id
  exact ⟨s', k1, k3⟩

/-- one object in the window and one in the main cache -/
example : (answers (WTinyLFU.onLRU WTinyLFU_H) (WTinyLFU.initLRU 14 9 .none 64 2) (WTinyLFU_ops ++ [.remove 3, .remove 1, .remove 1])).map (fun l => l.drop 17) = some [true, true, false] := by decide +kernel

/-- A request that is not admitted leaves the window, the main cache, the frequency sketch and its counter unchanged. -/
theorem C08_rejectQuiet_WTinyLFULRU_partial (H : CBF.Hashes ObjId) (cs ms : Nat) (adm : Adm) (num hs : Nat) (hn : 0 < num) (p : Perms) :
    RejectQuiet (WTinyLFU.onLRU H) WTinyLFULRU_cached (fun s r => admitsBase s.base r && decide (r.size ≤ cs - ms) && decide (r.size ≤ ms)) (fun s => (s.win, s.main, s.sk, s.counter)) (WTinyLFU.initLRU cs ms adm num hs) (Calls p (WTinyLFU.Fits (ms) p)) := by
  intro ops out s ho hr r hor hm ha
  have hi := (WTinyLFU.contract (H := H) (WTinyLFU.mainLRU cs ms) (cs - ms) (p := p) (fun _ => trivial)).reach (WTinyLFU.inv_init _ (WTinyLFU.QMain.init ms) rfl cs ms adm hn hs _) ho hr
  obtain ⟨s', h1, h2, h3, h4, h5⟩ := (WTinyLFU.get_spec (H := H) (WTinyLFU.mainLRU cs ms) hi r hor.2).2.2.1 hm ha
  exact ⟨s', h1, by simp only [h2, h3, h4, h5]⟩

/-- a rejected request: larger than the window -/
example : 12 ∉ (WTinyLFULRU_cached WTinyLFULRU_demo).ids ∧ (admitsBase WTinyLFULRU_demo.base ⟨12, 6, -2⟩ && decide (6 ≤ 14 - 9)) = false := by decide +kernel

theorem C09_safe_WTinyLFULRU_partial (H : CBF.Hashes ObjId) (cs ms : Nat) (adm : Adm) (num hs : Nat) (hn : 0 < num) (p : Perms) :
    Safe (WTinyLFU.onLRU H) (WTinyLFU.initLRU cs ms adm num hs) (Calls p (WTinyLFU.Fits (ms) p)) :=
  (WTinyLFU.contract (H := H) (WTinyLFU.mainLRU cs ms) (cs - ms) (p := p) (fun _ => trivial)).safe (WTinyLFU.inv_init _ (WTinyLFU.QMain.init ms) rfl cs ms adm hn hs _)

/-- C65: what a `get` does.  A hit in the window moves the object to the front of the window and changes nothing else.  A hit in the main cache is a hit there, by the main cache's own rule; the object is counted
in the sketch, and every `32 * ms` such hits the sketch decays.  An admitted miss evicts while there is no room for the object, and then puts it at the front of the window and counts it. -/
theorem C65_get_WTinyLFULRU_partial (H : CBF.Hashes ObjId) (cs ms : Nat) (adm : Adm) (num hs : Nat) (hn : 0 < num) (p : Perms) (ops : List Op) (out : List Bool) (s : WTinyLFU.State LRU.State)
    (ho : ∀ op ∈ ops, Calls p (WTinyLFU.Fits (ms) p) op) (hr : Reaches (WTinyLFU.onLRU H) (WTinyLFU.initLRU cs ms adm num hs) ops out s) (r : Req) (hor : WTinyLFU.Fits (ms) p r) :
    (r.id ∈ (cont s.win.objs).ids → ∃ s', (WTinyLFU.onLRU H).get s r = .ok (true, s') ∧
      cont s'.win.objs = TinyLFU.touch r.id (cont s.win.objs) ∧ s'.main = s.main ∧ s'.sk = s.sk ∧ s'.counter = s.counter) ∧
    (r.id ∈ s.main.base.cached.ids → ∃ s' v k, (WTinyLFU.onLRU H).get s r = .ok (true, s') ∧ s'.win = s.win ∧ LRU.algo.find s.main r true = .ok (true, s'.main) ∧ CBF.add H s.sk r.id = .ok (v, k) ∧
      ((s.counter + 1 < 32 * ms ∧ s'.sk = k ∧ s'.counter = s.counter + 1) ∨ (32 * ms ≤ s.counter + 1 ∧ s'.sk = (CBF.decay k).2 ∧ s'.counter = 0))) ∧
    (r.id ∉ (WTinyLFULRU_cached s).ids → (admitsBase s.base r && decide (r.size ≤ cs - ms) && decide (r.size ≤ ms)) = true →
      ∃ s' w k, (WTinyLFU.onLRU H).get s r = .ok (false, s') ∧ cont s'.win.objs = (r.id, r.size % u32) :: w ∧ (∃ v, CBF.add H k r.id = .ok (v, s'.sk)) ∧ s'.counter = s.counter ∧
        TinyLFU.Drains ms { used := fun m => bytes 0 m.base.cached, enters := fun m x m' => ∃ next, LRU.algo.insert m ⟨x.1, x.2, next⟩ = .ok m', next := fun m y => LRU.toEvict m = some y, drops := fun m m' => LRU.algo.evict m r = .ok m', freq := fun k y f => CBF.estimate H k y = .ok (f, k), count := fun k y k' => ∃ v, CBF.add H k y = .ok (v, k') } r.size cs ⟨cont s.win.objs, s.main, s.sk⟩ ⟨w, s'.main, k⟩) := by
  have hi := (WTinyLFU.contract (H := H) (WTinyLFU.mainLRU cs ms) (cs - ms) (p := p) (fun _ => trivial)).reach (WTinyLFU.inv_init _ (WTinyLFU.QMain.init ms) rfl cs ms adm hn hs _) ho hr
  have hmx : s.maxReq = 32 * ms := hi.mxz
  obtain ⟨h1, h2, _, h3⟩ := WTinyLFU.get_spec (H := H) (WTinyLFU.mainLRU cs ms) hi r hor.2
  refine ⟨h1, fun hm => ?_, fun hm ha => ?_⟩
  · obtain ⟨s', k1, k2, k3, v, k, k4, k5⟩ := h2 hm
    rw [hmx] at k5
    exact ⟨s', v, k, k1, k2, k3, k4, k5⟩
  · obtain ⟨s', w, k, k1, k2, k3, k4, _, k5⟩ := h3 hm ha
    exact ⟨s', w, k, k1, k2, k3, k4, k5⟩

/-- hit in the window; hit in the main cache; misses that move objects to the main cache -/
example : (fun s => ((cont s.win.objs).ids, s.main.base.cached.ids)) (after (WTinyLFU.onLRU WTinyLFU_H) (WTinyLFU.initLRU 14 9 .none 64 2) [.get ⟨1, 3, -2⟩, .get ⟨2, 2, -2⟩, .get ⟨1, 3, -2⟩]) = ([1, 2], []) := by decide +kernel
example : (fun s => ((cont s.win.objs).ids, s.main.base.cached.ids)) (after (WTinyLFU.onLRU WTinyLFU_H) (WTinyLFU.initLRU 14 9 .none 64 2) [.get ⟨1, 3, -2⟩, .get ⟨2, 2, -2⟩, .get ⟨3, 5, -2⟩, .get ⟨4, 3, -2⟩, .get ⟨5, 3, -2⟩, .get ⟨4, 3, -2⟩]) = ([4, 5], [2, 1]) := by decide +kernel

/-- C65: what one call of `evict` does. -/
theorem C65_evict_WTinyLFULRU_partial (H : CBF.Hashes ObjId) (cs ms : Nat) (adm : Adm) (num hs : Nat) (hn : 0 < num) (p : Perms) (ops : List Op) (out : List Bool) (s : WTinyLFU.State LRU.State)
    (ho : ∀ op ∈ ops, Calls p (WTinyLFU.Fits (ms) p) op) (hr : Reaches (WTinyLFU.onLRU H) (WTinyLFU.initLRU cs ms adm num hs) ops out s)
    (hpos : 0 < bytes 0 (WTinyLFULRU_cached s) ∨ (p.ev = true ∧ WTinyLFULRU_cached s ≠ [])) (r : Req) :
    ∃ s', (WTinyLFU.onLRU H).evict s r = .ok s' ∧ s'.counter = s.counter ∧
      TinyLFU.Evicts ms { used := fun m => bytes 0 m.base.cached, enters := fun m x m' => ∃ next, LRU.algo.insert m ⟨x.1, x.2, next⟩ = .ok m', next := fun m y => LRU.toEvict m = some y, drops := fun m m' => LRU.algo.evict m r = .ok m', freq := fun k y f => CBF.estimate H k y = .ok (f, k), count := fun k y k' => ∃ v, CBF.add H k y = .ok (v, k') } ⟨cont s.win.objs, s.main, s.sk⟩ ⟨cont s'.win.objs, s'.main, s'.sk⟩ := by
  have hi := (WTinyLFU.contract (H := H) (WTinyLFU.mainLRU cs ms) (cs - ms) (p := p) (fun _ => trivial)).reach (WTinyLFU.inv_init _ (WTinyLFU.QMain.init ms) rfl cs ms adm hn hs _) ho hr
  have hb : 0 < charge 0 (WTinyLFULRU_cached s) := by
    rcases hpos with h | ⟨h1, h2⟩
    · rw [bytes_eq_charge] at h; exact h
    · exact hi.charged h1 h2
  obtain ⟨s', k1, _, _, _, _, k2, _, k3, _⟩ := WTinyLFU.evict_spec (H := H) (WTinyLFU.mainLRU cs ms) hi hb r
  exact ⟨s', k1, k2, k3⟩

/-- the candidate loses; both candidates move and the main cache evicts -/
example : (fun s => ((cont s.win.objs).ids, s.main.base.cached.ids)) (after (WTinyLFU.onLRU WTinyLFU_H) (WTinyLFU.initLRU 14 9 .none 64 2) [.get ⟨1, 3, -2⟩, .get ⟨2, 2, -2⟩, .get ⟨3, 5, -2⟩, .get ⟨4, 3, -2⟩, .evict ⟨0, 1, -2⟩]) = ([4], [2, 1]) := by decide +kernel
example : (fun s => ((cont s.win.objs).ids, s.main.base.cached.ids)) (after (WTinyLFU.onLRU WTinyLFU_H) (WTinyLFU.initLRU 14 9 .none 64 2) [.get ⟨1, 3, -2⟩, .get ⟨2, 2, -2⟩, .evict ⟨0, 1, -2⟩]) = ([], [2]) := by decide +kernel

/-- C65: no object is in the window and in the main cache at the same time. -/
theorem C65_onePlace_WTinyLFULRU_partial (H : CBF.Hashes ObjId) (cs ms : Nat) (adm : Adm) (num hs : Nat) (hn : 0 < num) (p : Perms) (ops : List Op) (out : List Bool) (s : WTinyLFU.State LRU.State)
    (ho : ∀ op ∈ ops, Calls p (WTinyLFU.Fits (ms) p) op) (hr : Reaches (WTinyLFU.onLRU H) (WTinyLFU.initLRU cs ms adm num hs) ops out s) :
    ((cont s.win.objs).ids ++ s.main.base.cached.ids).Nodup := by
  have := ((WTinyLFU.contract (H := H) (WTinyLFU.mainLRU cs ms) (cs - ms) (p := p) (fun _ => trivial)).reach (WTinyLFU.inv_init _ (WTinyLFU.QMain.init ms) rfl cs ms adm hn hs _) ho hr).nodup (WTinyLFU.mainLRU cs ms)
  rw [WTinyLFU.cached, Contents.ids, List.map_append] at this
  exact this

/-! ## Main cache FIFO -/

/-- what is cached: window and main cache -/
abbrev WTinyLFUFIFO_cached (s : WTinyLFU.State FIFO.State) : Contents := WTinyLFU.cached (fun m => m.base.cached) s

def WTinyLFUFIFO_demo : WTinyLFU.State FIFO.State := after (WTinyLFU.onFIFO WTinyLFU_H) (WTinyLFU.initFIFO 14 9 .none 64 2) WTinyLFU_ops

/-- the demo runs without fault -/
example : (answers (WTinyLFU.onFIFO WTinyLFU_H) (WTinyLFU.initFIFO 14 9 .none 64 2) WTinyLFU_ops).isSome = true := by decide +kernel

theorem C01_capacity_WTinyLFUFIFO_partial (H : CBF.Hashes ObjId) (cs ms : Nat) (adm : Adm) (num hs : Nat) (hn : 0 < num) (p : Perms) :
    Capacity (WTinyLFU.onFIFO H) (WTinyLFU.initFIFO cs ms adm num hs) (Calls p (WTinyLFU.Fits (ms) p)) cs :=
  (WTinyLFU.contract (H := H) (WTinyLFU.mainFIFO cs ms) (cs - ms) (p := p) (fun _ => trivial)).capacity (WTinyLFU.inv_init _ (WTinyLFU.QMain.init ms) rfl cs ms adm hn hs _)

example : (WTinyLFU.onFIFO WTinyLFU_H).occ WTinyLFUFIFO_demo > 9 := by decide +kernel

theorem C02_accounting_WTinyLFUFIFO_partial (H : CBF.Hashes ObjId) (cs ms : Nat) (adm : Adm) (num hs : Nat) (hn : 0 < num) (p : Perms) :
    Accounting (WTinyLFU.onFIFO H) WTinyLFUFIFO_cached (WTinyLFU.initFIFO cs ms adm num hs) (Calls p (WTinyLFU.Fits (ms) p)) 0 :=
  (WTinyLFU.contract (H := H) (WTinyLFU.mainFIFO cs ms) (cs - ms) (p := p) (fun _ => trivial)).accounting (WTinyLFU.inv_init _ (WTinyLFU.QMain.init ms) rfl cs ms adm hn hs _)

example : (WTinyLFU.onFIFO WTinyLFU_H).nObj WTinyLFUFIFO_demo > 2 ∧ WTinyLFUFIFO_demo.main.base.nObj > 0 ∧ WTinyLFUFIFO_demo.win.base.nObj > 0 := by decide +kernel

theorem C03_hitIffCached_WTinyLFUFIFO_partial (H : CBF.Hashes ObjId) (cs ms : Nat) (adm : Adm) (num hs : Nat) (hn : 0 < num) (p : Perms) :
    HitIffCached (WTinyLFU.onFIFO H) WTinyLFUFIFO_cached (WTinyLFU.initFIFO cs ms adm num hs) (Calls p (WTinyLFU.Fits (ms) p)) :=
  (WTinyLFU.contract (H := H) (WTinyLFU.mainFIFO cs ms) (cs - ms) (p := p) (fun _ => trivial)).hitIffCached (WTinyLFU.inv_init _ (WTinyLFU.QMain.init ms) rfl cs ms adm hn hs _)

theorem C04_noPhantom_WTinyLFUFIFO_partial (H : CBF.Hashes ObjId) (cs ms : Nat) (adm : Adm) (num hs : Nat) (hn : 0 < num) (p : Perms) :
    NoPhantom (WTinyLFU.onFIFO H) WTinyLFUFIFO_cached (WTinyLFU.initFIFO cs ms adm num hs) (Calls p (WTinyLFU.Fits (ms) p)) :=
  (WTinyLFU.contract (H := H) (WTinyLFU.mainFIFO cs ms) (cs - ms) (p := p) (fun _ => trivial)).noPhantom (WTinyLFU.inv_init _ (WTinyLFU.QMain.init ms) rfl cs ms adm hn hs _) (by rfl) (fun _ s s' b id hi he => by
    obtain ⟨s'', k1, _, k3, _⟩ := WTinyLFU.remove_spec (WTinyLFU.mainFIFO cs ms) trivial hi id
    rw [show (WTinyLFU.algo H FIFO.algo FIFO.toEvict).remove s id = WTinyLFU.remove FIFO.algo s id from rfl, k1] at he
    cases he
    intro hx
    have := QDLP.ids_sub k3.subperm hx
    simp at this)

theorem C04_addsOnlyRequested_WTinyLFUFIFO_partial (H : CBF.Hashes ObjId) (cs ms : Nat) (adm : Adm) (num hs : Nat) (hn : 0 < num) (p : Perms) :
    AddsOnlyRequested (WTinyLFU.onFIFO H) WTinyLFUFIFO_cached (WTinyLFU.initFIFO cs ms adm num hs) (Calls p (WTinyLFU.Fits (ms) p)) :=
  (WTinyLFU.contract (H := H) (WTinyLFU.mainFIFO cs ms) (cs - ms) (p := p) (fun _ => trivial)).addsOnlyRequested (WTinyLFU.inv_init _ (WTinyLFU.QMain.init ms) rfl cs ms adm hn hs _)

theorem C05_admittedMissCached_WTinyLFUFIFO_partial (H : CBF.Hashes ObjId) (cs ms : Nat) (adm : Adm) (num hs : Nat) (hn : 0 < num) (p : Perms) :
    AdmittedMissCached (WTinyLFU.onFIFO H) WTinyLFUFIFO_cached (fun s r => admitsBase s.base r && decide (r.size ≤ cs - ms) && decide (r.size ≤ ms)) (WTinyLFU.initFIFO cs ms adm num hs) (Calls p (WTinyLFU.Fits (ms) p)) := by
  intro ops out s ho hr r hor hm ha
  have hi := (WTinyLFU.contract (H := H) (WTinyLFU.mainFIFO cs ms) (cs - ms) (p := p) (fun _ => trivial)).reach (WTinyLFU.inv_init _ (WTinyLFU.QMain.init ms) rfl cs ms adm hn hs _) ho hr
  obtain ⟨s', w, k, h1, h2, _⟩ := (WTinyLFU.get_spec (H := H) (WTinyLFU.mainFIFO cs ms) hi r hor.2).2.2.2 hm ha
  refine ⟨s', h1, ?_⟩
  simp [WTinyLFUFIFO_cached, WTinyLFU.cached, h2]

/-- an admitted miss that evicts -/
example : 11 ∉ (WTinyLFUFIFO_cached WTinyLFUFIFO_demo).ids ∧ (WTinyLFU.onFIFO WTinyLFU_H).occ WTinyLFUFIFO_demo + 5 > 14 := by decide +kernel

theorem C07_removeExact_WTinyLFUFIFO_partial (H : CBF.Hashes ObjId) (cs ms : Nat) (adm : Adm) (num hs : Nat) (hn : 0 < num) (p : Perms) :
    RemoveExact (WTinyLFU.onFIFO H) WTinyLFUFIFO_cached (WTinyLFU.initFIFO cs ms adm num hs) (Calls p (WTinyLFU.Fits (ms) p)) := by
  intro ops out s ho hr id
  have hi := (WTinyLFU.contract (H := H) (WTinyLFU.mainFIFO cs ms) (cs - ms) (p := p) (fun _ => trivial)).reach (WTinyLFU.inv_init _ (WTinyLFU.QMain.init ms) rfl cs ms adm hn hs _) ho hr
  obtain ⟨s', k1, _, k3, _⟩ := WTinyLFU.remove_spec (WTinyLFU.mainFIFO cs ms) trivial hi id
  exact ⟨s', k1, k3⟩

/-- one object in the window and one in the main cache -/
example : (answers (WTinyLFU.onFIFO WTinyLFU_H) (WTinyLFU.initFIFO 14 9 .none 64 2) (WTinyLFU_ops ++ [.remove 9, .remove 3, .remove 3])).map (fun l => l.drop 17) = some [true, true, false] := by decide +kernel

/-- A request that is not admitted leaves the window, the main cache, the frequency sketch and its counter unchanged. -/
theorem C08_rejectQuiet_WTinyLFUFIFO_partial (H : CBF.Hashes ObjId) (cs ms : Nat) (adm : Adm) (num hs : Nat) (hn : 0 < num) (p : Perms) :
    RejectQuiet (WTinyLFU.onFIFO H) WTinyLFUFIFO_cached (fun s r => admitsBase s.base r && decide (r.size ≤ cs - ms) && decide (r.size ≤ ms)) (fun s => (s.win, s.main, s.sk, s.counter)) (WTinyLFU.initFIFO cs ms adm num hs) (Calls p (WTinyLFU.Fits (ms) p)) := by
  intro ops out s ho hr r hor hm ha
  have hi := (WTinyLFU.contract (H := H) (WTinyLFU.mainFIFO cs ms) (cs - ms) (p := p) (fun _ => trivial)).reach (WTinyLFU.inv_init _ (WTinyLFU.QMain.init ms) rfl cs ms adm hn hs _) ho hr
  obtain ⟨s', h1, h2, h3, h4, h5⟩ := (WTinyLFU.get_spec (H := H) (WTinyLFU.mainFIFO cs ms) hi r hor.2).2.2.1 hm ha
  exact ⟨s', h1, by simp only [h2, h3, h4, h5]⟩

/-- a rejected request: larger than the window -/
example : 12 ∉ (WTinyLFUFIFO_cached WTinyLFUFIFO_demo).ids ∧ (admitsBase WTinyLFUFIFO_demo.base ⟨12, 6, -2⟩ && decide (6 ≤ 14 - 9)) = false := by decide +kernel

theorem C09_safe_WTinyLFUFIFO_partial (H : CBF.Hashes ObjId) (cs ms : Nat) (adm : Adm) (num hs : Nat) (hn : 0 < num) (p : Perms) :
    Safe (WTinyLFU.onFIFO H) (WTinyLFU.initFIFO cs ms adm num hs) (Calls p (WTinyLFU.Fits (ms) p)) :=
  (WTinyLFU.contract (H := H) (WTinyLFU.mainFIFO cs ms) (cs - ms) (p := p) (fun _ => trivial)).safe (WTinyLFU.inv_init _ (WTinyLFU.QMain.init ms) rfl cs ms adm hn hs _)

/-- C65: what a `get` does.  A hit in the window moves the object to the front of the window and changes nothing else.  A hit in the main cache is a hit there, by the main cache's own rule; the object is counted
in the sketch, and every `32 * ms` such hits the sketch decays.  An admitted miss evicts while there is no room for the object, and then puts it at the front of the window and counts it. -/
theorem C65_get_WTinyLFUFIFO_partial (H : CBF.Hashes ObjId) (cs ms : Nat) (adm : Adm) (num hs : Nat) (hn : 0 < num) (p : Perms) (ops : List Op) (out : List Bool) (s : WTinyLFU.State FIFO.State)
    (ho : ∀ op ∈ ops, Calls p (WTinyLFU.Fits (ms) p) op) (hr : Reaches (WTinyLFU.onFIFO H) (WTinyLFU.initFIFO cs ms adm num hs) ops out s) (r : Req) (hor : WTinyLFU.Fits (ms) p r) :
    (r.id ∈ (cont s.win.objs).ids → ∃ s', (WTinyLFU.onFIFO H).get s r = .ok (true, s') ∧
      cont s'.win.objs = TinyLFU.touch r.id (cont s.win.objs) ∧ s'.main = s.main ∧ s'.sk = s.sk ∧ s'.counter = s.counter) ∧
    (r.id ∈ s.main.base.cached.ids → ∃ s' v k, (WTinyLFU.onFIFO H).get s r = .ok (true, s') ∧ s'.win = s.win ∧ FIFO.algo.find s.main r true = .ok (true, s'.main) ∧ CBF.add H s.sk r.id = .ok (v, k) ∧
      ((s.counter + 1 < 32 * ms ∧ s'.sk = k ∧ s'.counter = s.counter + 1) ∨ (32 * ms ≤ s.counter + 1 ∧ s'.sk = (CBF.decay k).2 ∧ s'.counter = 0))) ∧
    (r.id ∉ (WTinyLFUFIFO_cached s).ids → (admitsBase s.base r && decide (r.size ≤ cs - ms) && decide (r.size ≤ ms)) = true →
      ∃ s' w k, (WTinyLFU.onFIFO H).get s r = .ok (false, s') ∧ cont s'.win.objs = (r.id, r.size % u32) :: w ∧ (∃ v, CBF.add H k r.id = .ok (v, s'.sk)) ∧ s'.counter = s.counter ∧
        TinyLFU.Drains ms { used := fun m => bytes 0 m.base.cached, enters := fun m x m' => ∃ next, FIFO.algo.insert m ⟨x.1, x.2, next⟩ = .ok m', next := fun m y => FIFO.toEvict m = some y, drops := fun m m' => FIFO.algo.evict m r = .ok m', freq := fun k y f => CBF.estimate H k y = .ok (f, k), count := fun k y k' => ∃ v, CBF.add H k y = .ok (v, k') } r.size cs ⟨cont s.win.objs, s.main, s.sk⟩ ⟨w, s'.main, k⟩) := by
  have hi := (WTinyLFU.contract (H := H) (WTinyLFU.mainFIFO cs ms) (cs - ms) (p := p) (fun _ => trivial)).reach (WTinyLFU.inv_init _ (WTinyLFU.QMain.init ms) rfl cs ms adm hn hs _) ho hr
  have hmx : s.maxReq = 32 * ms := hi.mxz
  obtain ⟨h1, h2, _, h3⟩ := WTinyLFU.get_spec (H := H) (WTinyLFU.mainFIFO cs ms) hi r hor.2
  refine ⟨h1, fun hm => ?_, fun hm ha => ?_⟩
  · obtain ⟨s', k1, k2, k3, v, k, k4, k5⟩ := h2 hm
    rw [hmx] at k5
    exact ⟨s', v, k, k1, k2, k3, k4, k5⟩
  · obtain ⟨s', w, k, k1, k2, k3, k4, _, k5⟩ := h3 hm ha
    exact ⟨s', w, k, k1, k2, k3, k4, k5⟩

/-- hit in the window; hit in the main cache; misses that move objects to the main cache -/
example : (fun s => ((cont s.win.objs).ids, s.main.base.cached.ids)) (after (WTinyLFU.onFIFO WTinyLFU_H) (WTinyLFU.initFIFO 14 9 .none 64 2) [.get ⟨1, 3, -2⟩, .get ⟨2, 2, -2⟩, .get ⟨1, 3, -2⟩]) = ([1, 2], []) := by decide +kernel
example : (fun s => ((cont s.win.objs).ids, s.main.base.cached.ids)) (after (WTinyLFU.onFIFO WTinyLFU_H) (WTinyLFU.initFIFO 14 9 .none 64 2) [.get ⟨1, 3, -2⟩, .get ⟨2, 2, -2⟩, .get ⟨3, 5, -2⟩, .get ⟨4, 3, -2⟩, .get ⟨5, 3, -2⟩, .get ⟨4, 3, -2⟩]) = ([4, 5], [2, 1]) := by decide +kernel

/-- C65: what one call of `evict` does. -/
theorem C65_evict_WTinyLFUFIFO_partial (H : CBF.Hashes ObjId) (cs ms : Nat) (adm : Adm) (num hs : Nat) (hn : 0 < num) (p : Perms) (ops : List Op) (out : List Bool) (s : WTinyLFU.State FIFO.State)
    (ho : ∀ op ∈ ops, Calls p (WTinyLFU.Fits (ms) p) op) (hr : Reaches (WTinyLFU.onFIFO H) (WTinyLFU.initFIFO cs ms adm num hs) ops out s)
    (hpos : 0 < bytes 0 (WTinyLFUFIFO_cached s) ∨ (p.ev = true ∧ WTinyLFUFIFO_cached s ≠ [])) (r : Req) :
    ∃ s', (WTinyLFU.onFIFO H).evict s r = .ok s' ∧ s'.counter = s.counter ∧
      TinyLFU.Evicts ms { used := fun m => bytes 0 m.base.cached, enters := fun m x m' => ∃ next, FIFO.algo.insert m ⟨x.1, x.2, next⟩ = .ok m', next := fun m y => FIFO.toEvict m = some y, drops := fun m m' => FIFO.algo.evict m r = .ok m', freq := fun k y f => CBF.estimate H k y = .ok (f, k), count := fun k y k' => ∃ v, CBF.add H k y = .ok (v, k') } ⟨cont s.win.objs, s.main, s.sk⟩ ⟨cont s'.win.objs, s'.main, s'.sk⟩ := by
  have hi := (WTinyLFU.contract (H := H) (WTinyLFU.mainFIFO cs ms) (cs - ms) (p := p) (fun _ => trivial)).reach (WTinyLFU.inv_init _ (WTinyLFU.QMain.init ms) rfl cs ms adm hn hs _) ho hr
  have hb : 0 < charge 0 (WTinyLFUFIFO_cached s) := by
    rcases hpos with h | ⟨h1, h2⟩
    · rw [bytes_eq_charge] at h; exact h
    · exact hi.charged h1 h2
  obtain ⟨s', k1, _, _, _, _, k2, _, k3, _⟩ := WTinyLFU.evict_spec (H := H) (WTinyLFU.mainFIFO cs ms) hi hb r
  exact ⟨s', k1, k2, k3⟩

/-- the candidate loses; both candidates move and the main cache evicts -/
example : (fun s => ((cont s.win.objs).ids, s.main.base.cached.ids)) (after (WTinyLFU.onFIFO WTinyLFU_H) (WTinyLFU.initFIFO 14 9 .none 64 2) [.get ⟨1, 3, -2⟩, .get ⟨2, 2, -2⟩, .get ⟨3, 5, -2⟩, .get ⟨4, 3, -2⟩, .evict ⟨0, 1, -2⟩]) = ([4], [2, 1]) := by decide +kernel
example : (fun s => ((cont s.win.objs).ids, s.main.base.cached.ids)) (after (WTinyLFU.onFIFO WTinyLFU_H) (WTinyLFU.initFIFO 14 9 .none 64 2) [.get ⟨1, 3, -2⟩, .get ⟨2, 2, -2⟩, .evict ⟨0, 1, -2⟩]) = ([], [2]) := by decide +kernel

/-- C65: no object is in the window and in the main cache at the same time. -/
theorem C65_onePlace_WTinyLFUFIFO_partial (H : CBF.Hashes ObjId) (cs ms : Nat) (adm : Adm) (num hs : Nat) (hn : 0 < num) (p : Perms) (ops : List Op) (out : List Bool) (s : WTinyLFU.State FIFO.State)
    (ho : ∀ op ∈ ops, Calls p (WTinyLFU.Fits (ms) p) op) (hr : Reaches (WTinyLFU.onFIFO H) (WTinyLFU.initFIFO cs ms adm num hs) ops out s) :
    ((cont s.win.objs).ids ++ s.main.base.cached.ids).Nodup := by
  have := ((WTinyLFU.contract (H := H) (WTinyLFU.mainFIFO cs ms) (cs - ms) (p := p) (fun _ => trivial)).reach (WTinyLFU.inv_init _ (WTinyLFU.QMain.init ms) rfl cs ms adm hn hs _) ho hr).nodup (WTinyLFU.mainFIFO cs ms)
  rw [WTinyLFU.cached, Contents.ids, List.map_append] at this
  exact this

/-! ## Main cache SLRU -/

/-- what is cached: window and main cache -/
abbrev WTinyLFUSLRU_cached (s : WTinyLFU.State SLRU.State) : Contents := WTinyLFU.cached (fun m => m.base.cached) s

def WTinyLFUSLRU_demo : WTinyLFU.State SLRU.State := after (WTinyLFU.onSLRU WTinyLFU_H) (WTinyLFU.initSLRU 14 9 2 (fun i => if i = 0 then 5 else 4) .none 64 2) WTinyLFU_ops

/-- the demo runs without fault -/
example : (answers (WTinyLFU.onSLRU WTinyLFU_H) (WTinyLFU.initSLRU 14 9 2 (fun i => if i = 0 then 5 else 4) .none 64 2) WTinyLFU_ops).isSome = true := by decide +kernel

theorem C01_capacity_WTinyLFUSLRU_partial (H : CBF.Hashes ObjId) (cs ms n : Nat) (lim : Nat → Nat) (hn1 : 1 ≤ n) (hlm : lim 0 ≤ ms) (adm : Adm) (num hs : Nat) (hn : 0 < num) (p : Perms) (hp : p.rem = false) :
    Capacity (WTinyLFU.onSLRU H) (WTinyLFU.initSLRU cs ms n lim adm num hs) (Calls p (WTinyLFU.Fits (lim 0) p)) cs :=
  (WTinyLFU.contract (H := H) (WTinyLFU.mainSLRU cs ms n lim hn1 hlm) (cs - ms) (p := p) (by simp [hp])).capacity (WTinyLFU.inv_init _ (WTinyLFU.sInit cs ms n lim) rfl cs ms adm hn hs _)

example : (WTinyLFU.onSLRU WTinyLFU_H).occ WTinyLFUSLRU_demo > 9 := by decide +kernel

theorem C02_accounting_WTinyLFUSLRU_partial (H : CBF.Hashes ObjId) (cs ms n : Nat) (lim : Nat → Nat) (hn1 : 1 ≤ n) (hlm : lim 0 ≤ ms) (adm : Adm) (num hs : Nat) (hn : 0 < num) (p : Perms) (hp : p.rem = false) :
    Accounting (WTinyLFU.onSLRU H) WTinyLFUSLRU_cached (WTinyLFU.initSLRU cs ms n lim adm num hs) (Calls p (WTinyLFU.Fits (lim 0) p)) 0 :=
  (WTinyLFU.contract (H := H) (WTinyLFU.mainSLRU cs ms n lim hn1 hlm) (cs - ms) (p := p) (by simp [hp])).accounting (WTinyLFU.inv_init _ (WTinyLFU.sInit cs ms n lim) rfl cs ms adm hn hs _)

example : (WTinyLFU.onSLRU WTinyLFU_H).nObj WTinyLFUSLRU_demo > 2 ∧ WTinyLFUSLRU_demo.main.base.nObj > 0 ∧ WTinyLFUSLRU_demo.win.base.nObj > 0 := by decide +kernel

theorem C03_hitIffCached_WTinyLFUSLRU_partial (H : CBF.Hashes ObjId) (cs ms n : Nat) (lim : Nat → Nat) (hn1 : 1 ≤ n) (hlm : lim 0 ≤ ms) (adm : Adm) (num hs : Nat) (hn : 0 < num) (p : Perms) (hp : p.rem = false) :
    HitIffCached (WTinyLFU.onSLRU H) WTinyLFUSLRU_cached (WTinyLFU.initSLRU cs ms n lim adm num hs) (Calls p (WTinyLFU.Fits (lim 0) p)) :=
  (WTinyLFU.contract (H := H) (WTinyLFU.mainSLRU cs ms n lim hn1 hlm) (cs - ms) (p := p) (by simp [hp])).hitIffCached (WTinyLFU.inv_init _ (WTinyLFU.sInit cs ms n lim) rfl cs ms adm hn hs _)

theorem C04_noPhantom_WTinyLFUSLRU_partial (H : CBF.Hashes ObjId) (cs ms n : Nat) (lim : Nat → Nat) (hn1 : 1 ≤ n) (hlm : lim 0 ≤ ms) (adm : Adm) (num hs : Nat) (hn : 0 < num) (p : Perms) (hp : p.rem = false) :
    NoPhantom (WTinyLFU.onSLRU H) WTinyLFUSLRU_cached (WTinyLFU.initSLRU cs ms n lim adm num hs) (Calls p (WTinyLFU.Fits (lim 0) p)) :=
  (WTinyLFU.contract (H := H) (WTinyLFU.mainSLRU cs ms n lim hn1 hlm) (cs - ms) (p := p) (by simp [hp])).noPhantom (WTinyLFU.inv_init _ (WTinyLFU.sInit cs ms n lim) rfl cs ms adm hn hs _) (by rfl) (fun hr => by simp [hp] at hr)

theorem C04_addsOnlyRequested_WTinyLFUSLRU_partial (H : CBF.Hashes ObjId) (cs ms n : Nat) (lim : Nat → Nat) (hn1 : 1 ≤ n) (hlm : lim 0 ≤ ms) (adm : Adm) (num hs : Nat) (hn : 0 < num) (p : Perms) (hp : p.rem = false) :
    AddsOnlyRequested (WTinyLFU.onSLRU H) WTinyLFUSLRU_cached (WTinyLFU.initSLRU cs ms n lim adm num hs) (Calls p (WTinyLFU.Fits (lim 0) p)) :=
  (WTinyLFU.contract (H := H) (WTinyLFU.mainSLRU cs ms n lim hn1 hlm) (cs - ms) (p := p) (by simp [hp])).addsOnlyRequested (WTinyLFU.inv_init _ (WTinyLFU.sInit cs ms n lim) rfl cs ms adm hn hs _)

theorem C05_admittedMissCached_WTinyLFUSLRU_partial (H : CBF.Hashes ObjId) (cs ms n : Nat) (lim : Nat → Nat) (hn1 : 1 ≤ n) (hlm : lim 0 ≤ ms) (adm : Adm) (num hs : Nat) (hn : 0 < num) (p : Perms) (hp : p.rem = false) :
    AdmittedMissCached (WTinyLFU.onSLRU H) WTinyLFUSLRU_cached (fun s r => admitsBase s.base r && decide (r.size ≤ cs - ms) && decide (r.size ≤ lim 0)) (WTinyLFU.initSLRU cs ms n lim adm num hs) (Calls p (WTinyLFU.Fits (lim 0) p)) := by
  intro ops out s ho hr r hor hm ha
  have hi := (WTinyLFU.contract (H := H) (WTinyLFU.mainSLRU cs ms n lim hn1 hlm) (cs - ms) (p := p) (by simp [hp])).reach (WTinyLFU.inv_init _ (WTinyLFU.sInit cs ms n lim) rfl cs ms adm hn hs _) ho hr
  obtain ⟨s', w, k, h1, h2, _⟩ := (WTinyLFU.get_spec (H := H) (WTinyLFU.mainSLRU cs ms n lim hn1 hlm) hi r hor.2).2.2.2 hm ha
  refine ⟨s', h1, ?_⟩
  simp [WTinyLFUSLRU_cached, WTinyLFU.cached, h2]

/-- an admitted miss that evicts -/
example : 11 ∉ (WTinyLFUSLRU_cached WTinyLFUSLRU_demo).ids ∧ (WTinyLFU.onSLRU WTinyLFU_H).occ WTinyLFUSLRU_demo + 5 > 14 := by decide +kernel

/-- A request that is not admitted leaves the window, the main cache, the frequency sketch and its counter unchanged. -/
theorem C08_rejectQuiet_WTinyLFUSLRU_partial (H : CBF.Hashes ObjId) (cs ms n : Nat) (lim : Nat → Nat) (hn1 : 1 ≤ n) (hlm : lim 0 ≤ ms) (adm : Adm) (num hs : Nat) (hn : 0 < num) (p : Perms) (hp : p.rem = false) :
    RejectQuiet (WTinyLFU.onSLRU H) WTinyLFUSLRU_cached (fun s r => admitsBase s.base r && decide (r.size ≤ cs - ms) && decide (r.size ≤ lim 0)) (fun s => (s.win, s.main, s.sk, s.counter)) (WTinyLFU.initSLRU cs ms n lim adm num hs) (Calls p (WTinyLFU.Fits (lim 0) p)) := by
  intro ops out s ho hr r hor hm ha
  have hi := (WTinyLFU.contract (H := H) (WTinyLFU.mainSLRU cs ms n lim hn1 hlm) (cs - ms) (p := p) (by simp [hp])).reach (WTinyLFU.inv_init _ (WTinyLFU.sInit cs ms n lim) rfl cs ms adm hn hs _) ho hr
  obtain ⟨s', h1, h2, h3, h4, h5⟩ := (WTinyLFU.get_spec (H := H) (WTinyLFU.mainSLRU cs ms n lim hn1 hlm) hi r hor.2).2.2.1 hm ha
  exact ⟨s', h1, by simp only [h2, h3, h4, h5]⟩

/-- a rejected request: larger than the window -/
example : 12 ∉ (WTinyLFUSLRU_cached WTinyLFUSLRU_demo).ids ∧ (admitsBase WTinyLFUSLRU_demo.base ⟨12, 6, -2⟩ && decide (6 ≤ 14 - 9)) = false := by decide +kernel

theorem C09_safe_WTinyLFUSLRU_partial (H : CBF.Hashes ObjId) (cs ms n : Nat) (lim : Nat → Nat) (hn1 : 1 ≤ n) (hlm : lim 0 ≤ ms) (adm : Adm) (num hs : Nat) (hn : 0 < num) (p : Perms) (hp : p.rem = false) :
    Safe (WTinyLFU.onSLRU H) (WTinyLFU.initSLRU cs ms n lim adm num hs) (Calls p (WTinyLFU.Fits (lim 0) p)) :=
  (WTinyLFU.contract (H := H) (WTinyLFU.mainSLRU cs ms n lim hn1 hlm) (cs - ms) (p := p) (by simp [hp])).safe (WTinyLFU.inv_init _ (WTinyLFU.sInit cs ms n lim) rfl cs ms adm hn hs _)

/-- C65: what a `get` does.  A hit in the window moves the object to the front of the window and changes nothing else.  A hit in the main cache is a hit there, by the main cache's own rule; the object is counted
in the sketch, and every `32 * ms` such hits the sketch decays.  An admitted miss evicts while there is no room for the object, and then puts it at the front of the window and counts it. -/
theorem C65_get_WTinyLFUSLRU_partial (H : CBF.Hashes ObjId) (cs ms n : Nat) (lim : Nat → Nat) (hn1 : 1 ≤ n) (hlm : lim 0 ≤ ms) (adm : Adm) (num hs : Nat) (hn : 0 < num) (p : Perms) (hp : p.rem = false) (ops : List Op) (out : List Bool) (s : WTinyLFU.State SLRU.State)
    (ho : ∀ op ∈ ops, Calls p (WTinyLFU.Fits (lim 0) p) op) (hr : Reaches (WTinyLFU.onSLRU H) (WTinyLFU.initSLRU cs ms n lim adm num hs) ops out s) (r : Req) (hor : WTinyLFU.Fits (lim 0) p r) :
    (r.id ∈ (cont s.win.objs).ids → ∃ s', (WTinyLFU.onSLRU H).get s r = .ok (true, s') ∧
      cont s'.win.objs = TinyLFU.touch r.id (cont s.win.objs) ∧ s'.main = s.main ∧ s'.sk = s.sk ∧ s'.counter = s.counter) ∧
    (r.id ∈ s.main.base.cached.ids → ∃ s' v k, (WTinyLFU.onSLRU H).get s r = .ok (true, s') ∧ s'.win = s.win ∧ SLRU.algo.find s.main r true = .ok (true, s'.main) ∧ CBF.add H s.sk r.id = .ok (v, k) ∧
      ((s.counter + 1 < 32 * ms ∧ s'.sk = k ∧ s'.counter = s.counter + 1) ∨ (32 * ms ≤ s.counter + 1 ∧ s'.sk = (CBF.decay k).2 ∧ s'.counter = 0))) ∧
    (r.id ∉ (WTinyLFUSLRU_cached s).ids → (admitsBase s.base r && decide (r.size ≤ cs - ms) && decide (r.size ≤ lim 0)) = true →
      ∃ s' w k, (WTinyLFU.onSLRU H).get s r = .ok (false, s') ∧ cont s'.win.objs = (r.id, r.size % u32) :: w ∧ (∃ v, CBF.add H k r.id = .ok (v, s'.sk)) ∧ s'.counter = s.counter ∧
        TinyLFU.Drains ms { used := fun m => bytes 0 m.base.cached, enters := fun m x m' => ∃ next, SLRU.algo.insert m ⟨x.1, x.2, next⟩ = .ok m', next := fun m y => SLRU.toEvict m = some y, drops := fun m m' => SLRU.algo.evict m r = .ok m', freq := fun k y f => CBF.estimate H k y = .ok (f, k), count := fun k y k' => ∃ v, CBF.add H k y = .ok (v, k') } r.size cs ⟨cont s.win.objs, s.main, s.sk⟩ ⟨w, s'.main, k⟩) := by
  have hi := (WTinyLFU.contract (H := H) (WTinyLFU.mainSLRU cs ms n lim hn1 hlm) (cs - ms) (p := p) (by simp [hp])).reach (WTinyLFU.inv_init _ (WTinyLFU.sInit cs ms n lim) rfl cs ms adm hn hs _) ho hr
  have hmx : s.maxReq = 32 * ms := hi.mxz
  obtain ⟨h1, h2, _, h3⟩ := WTinyLFU.get_spec (H := H) (WTinyLFU.mainSLRU cs ms n lim hn1 hlm) hi r hor.2
  refine ⟨h1, fun hm => ?_, fun hm ha => ?_⟩
  · obtain ⟨s', k1, k2, k3, v, k, k4, k5⟩ := h2 hm
    rw [hmx] at k5
    exact ⟨s', v, k, k1, k2, k3, k4, k5⟩
  · obtain ⟨s', w, k, k1, k2, k3, k4, _, k5⟩ := h3 hm ha
    exact ⟨s', w, k, k1, k2, k3, k4, k5⟩

/-- hit in the window; hit in the main cache; misses that move objects to the main cache -/
example : (fun s => ((cont s.win.objs).ids, s.main.base.cached.ids)) (after (WTinyLFU.onSLRU WTinyLFU_H) (WTinyLFU.initSLRU 14 9 2 (fun i => if i = 0 then 5 else 4) .none 64 2) [.get ⟨1, 3, -2⟩, .get ⟨2, 2, -2⟩, .get ⟨1, 3, -2⟩]) = ([1, 2], []) := by decide +kernel
example : (fun s => ((cont s.win.objs).ids, s.main.base.cached.ids)) (after (WTinyLFU.onSLRU WTinyLFU_H) (WTinyLFU.initSLRU 14 9 2 (fun i => if i = 0 then 5 else 4) .none 64 2) [.get ⟨1, 3, -2⟩, .get ⟨2, 2, -2⟩, .get ⟨3, 5, -2⟩, .get ⟨4, 3, -2⟩, .get ⟨5, 3, -2⟩, .get ⟨4, 3, -2⟩]) = ([4, 5], [2, 1]) := by decide +kernel

/-- C65: what one call of `evict` does. -/
theorem C65_evict_WTinyLFUSLRU_partial (H : CBF.Hashes ObjId) (cs ms n : Nat) (lim : Nat → Nat) (hn1 : 1 ≤ n) (hlm : lim 0 ≤ ms) (adm : Adm) (num hs : Nat) (hn : 0 < num) (p : Perms) (hp : p.rem = false) (ops : List Op) (out : List Bool) (s : WTinyLFU.State SLRU.State)
    (ho : ∀ op ∈ ops, Calls p (WTinyLFU.Fits (lim 0) p) op) (hr : Reaches (WTinyLFU.onSLRU H) (WTinyLFU.initSLRU cs ms n lim adm num hs) ops out s)
    (hpos : 0 < bytes 0 (WTinyLFUSLRU_cached s) ∨ (p.ev = true ∧ WTinyLFUSLRU_cached s ≠ [])) (r : Req) :
    ∃ s', (WTinyLFU.onSLRU H).evict s r = .ok s' ∧ s'.counter = s.counter ∧
      TinyLFU.Evicts ms { used := fun m => bytes 0 m.base.cached, enters := fun m x m' => ∃ next, SLRU.algo.insert m ⟨x.1, x.2, next⟩ = .ok m', next := fun m y => SLRU.toEvict m = some y, drops := fun m m' => SLRU.algo.evict m r = .ok m', freq := fun k y f => CBF.estimate H k y = .ok (f, k), count := fun k y k' => ∃ v, CBF.add H k y = .ok (v, k') } ⟨cont s.win.objs, s.main, s.sk⟩ ⟨cont s'.win.objs, s'.main, s'.sk⟩ := by
  have hi := (WTinyLFU.contract (H := H) (WTinyLFU.mainSLRU cs ms n lim hn1 hlm) (cs - ms) (p := p) (by simp [hp])).reach (WTinyLFU.inv_init _ (WTinyLFU.sInit cs ms n lim) rfl cs ms adm hn hs _) ho hr
  have hb : 0 < charge 0 (WTinyLFUSLRU_cached s) := by
    rcases hpos with h | ⟨h1, h2⟩
    · rw [bytes_eq_charge] at h; exact h
    · exact hi.charged h1 h2
  obtain ⟨s', k1, _, _, _, _, k2, _, k3, _⟩ := WTinyLFU.evict_spec (H := H) (WTinyLFU.mainSLRU cs ms n lim hn1 hlm) hi hb r
  exact ⟨s', k1, k2, k3⟩

/-- the candidate loses; both candidates move and the main cache evicts -/
example : (fun s => ((cont s.win.objs).ids, s.main.base.cached.ids)) (after (WTinyLFU.onSLRU WTinyLFU_H) (WTinyLFU.initSLRU 14 9 2 (fun i => if i = 0 then 5 else 4) .none 64 2) [.get ⟨1, 3, -2⟩, .get ⟨2, 2, -2⟩, .get ⟨3, 5, -2⟩, .get ⟨4, 3, -2⟩, .evict ⟨0, 1, -2⟩]) = ([4], [2, 1]) := by decide +kernel
example : (fun s => ((cont s.win.objs).ids, s.main.base.cached.ids)) (after (WTinyLFU.onSLRU WTinyLFU_H) (WTinyLFU.initSLRU 14 9 2 (fun i => if i = 0 then 5 else 4) .none 64 2) [.get ⟨1, 3, -2⟩, .get ⟨2, 2, -2⟩, .evict ⟨0, 1, -2⟩]) = ([], [2]) := by decide +kernel

/-- C65: no object is in the window and in the main cache at the same time. -/
theorem C65_onePlace_WTinyLFUSLRU_partial (H : CBF.Hashes ObjId) (cs ms n : Nat) (lim : Nat → Nat) (hn1 : 1 ≤ n) (hlm : lim 0 ≤ ms) (adm : Adm) (num hs : Nat) (hn : 0 < num) (p : Perms) (hp : p.rem = false) (ops : List Op) (out : List Bool) (s : WTinyLFU.State SLRU.State)
    (ho : ∀ op ∈ ops, Calls p (WTinyLFU.Fits (lim 0) p) op) (hr : Reaches (WTinyLFU.onSLRU H) (WTinyLFU.initSLRU cs ms n lim adm num hs) ops out s) :
    ((cont s.win.objs).ids ++ s.main.base.cached.ids).Nodup := by
  have := ((WTinyLFU.contract (H := H) (WTinyLFU.mainSLRU cs ms n lim hn1 hlm) (cs - ms) (p := p) (by simp [hp])).reach (WTinyLFU.inv_init _ (WTinyLFU.sInit cs ms n lim) rfl cs ms adm hn hs _) ho hr).nodup (WTinyLFU.mainSLRU cs ms n lim hn1 hlm)
  rw [WTinyLFU.cached, Contents.ids, List.map_append] at this
  exact this

/-! ## What goes wrong -/

/-- With `consider_obj_metadata` the cache cannot be created: `WTinyLFU_init` follows a pointer nothing has written. -/
theorem C09_considerMetadata_WTinyLFU_fails (cs ms : Nat) (adm : Adm) (num hs : Nat) :
    WTinyLFU.init (LRU.init ms 0 .none) true cs ms adm num hs = .error .uninit := rfl

/-- without it the cache the other theorems speak about is created -/
theorem C09_created_WTinyLFU (cs ms : Nat) (adm : Adm) (num hs : Nat) :
    WTinyLFU.init (LRU.init ms 0 .none) false cs ms adm num hs = .ok (WTinyLFU.initLRU cs ms adm num hs) := rfl

/-- With empty objects a client's `evict` call can crash: the window holds no bytes, although it holds an object, so the empty main cache is asked to evict. -/
theorem C09_emptyObjects_WTinyLFU_fails :
    ¬ Safe (WTinyLFU.onLRU WTinyLFU_H) (WTinyLFU.initLRU 14 9 .none 64 2) (Calls { ins := false } (fun _ => True)) := by
  intro h
  obtain ⟨out, s, h⟩ := h [.get ⟨1, 0, -2⟩, .evict ⟨0, 0, -2⟩] (by simp [Calls])
  have : faultOf (WTinyLFU.onLRU WTinyLFU_H) (WTinyLFU.initLRU 14 9 .none 64 2) [.get ⟨1, 0, -2⟩, .evict ⟨0, 0, -2⟩] = some .nullDeref := by decide +kernel
  unfold faultOf at this
  rw [show (WTinyLFU.onLRU WTinyLFU_H).run _ _ = _ from h] at this
  simp at this

/-- A client that inserts an object larger than the main cache crashes it at the next eviction: there is no room for the candidate and no victim to compare it with. -/
theorem C09_largeInsert_WTinyLFU_fails :
    ¬ Safe (WTinyLFU.onLRU WTinyLFU_H) (WTinyLFU.initLRU 14 9 .none 64 2) (Calls { ev := false } (fun r => 0 < r.size)) := by
  intro h
  obtain ⟨out, s, h⟩ := h [.insert ⟨1, 12, -2⟩, .get ⟨2, 3, -2⟩] (by simp [Calls])
  have : faultOf (WTinyLFU.onLRU WTinyLFU_H) (WTinyLFU.initLRU 14 9 .none 64 2) [.insert ⟨1, 12, -2⟩, .get ⟨2, 3, -2⟩] = some .nullDeref := by decide +kernel
  unfold faultOf at this
  rw [show (WTinyLFU.onLRU WTinyLFU_H).run _ _ = _ from h] at this
  simp at this

/-- With the default main cache `remove` does not work: SLRU does not adjust its byte counter, and a later hit uses an object it has just evicted. -/
theorem C09_remove_WTinyLFUSLRU_fails :
    ¬ Safe (WTinyLFU.onSLRU WTinyLFU_H) (WTinyLFU.initSLRU 14 9 2 (fun i => if i = 0 then 5 else 4) .none 64 2) (Calls { ev := false, ins := false } (fun r => 0 < r.size)) := by
  intro h
  obtain ⟨out, s, h⟩ := h [.get ⟨5, 4, -2⟩, .get ⟨1, 3, -2⟩, .get ⟨3, 5, -2⟩, .get ⟨1, 3, -2⟩, .get ⟨4, 3, -2⟩, .remove 5, .get ⟨3, 5, -2⟩] (by simp [Calls])
  have : faultOf (WTinyLFU.onSLRU WTinyLFU_H) (WTinyLFU.initSLRU 14 9 2 (fun i => if i = 0 then 5 else 4) .none 64 2)
    [.get ⟨5, 4, -2⟩, .get ⟨1, 3, -2⟩, .get ⟨3, 5, -2⟩, .get ⟨1, 3, -2⟩, .get ⟨4, 3, -2⟩, .remove 5, .get ⟨3, 5, -2⟩] = some .useAfterFree := by decide +kernel
  unfold faultOf at this
  rw [show (WTinyLFU.onSLRU WTinyLFU_H).run _ _ = _ from h] at this
  simp at this

/-- An eviction can drop more than was needed: the cache is full, one byte is requested, and objects 2 and 5 (2 and 4 bytes) both go. -/
theorem C06_evictOnDemand_WTinyLFU_fails :
    ¬ EvictOnDemand (WTinyLFU.onLRU WTinyLFU_H) WTinyLFULRU_cached (WTinyLFU.initLRU 14 9 .none 64 2) (Calls { ev := false, ins := false } (fun r => 0 < r.size)) 14 0 := by
  intro h
  have hr := reaches_after (A := WTinyLFU.onLRU WTinyLFU_H) (s0 := WTinyLFU.initLRU 14 9 .none 64 2)
    (ops := [.get ⟨5, 4, -2⟩, .get ⟨2, 2, -2⟩, .get ⟨3, 5, -2⟩, .get ⟨1, 3, -2⟩, .get ⟨6, 2, -2⟩, .get ⟨3, 5, -2⟩]) (out := List.replicate 6 false) (by decide +kernel)
  obtain ⟨_, h2⟩ := h _ _ _ (by simp [Calls]) hr ⟨7, 1, -2⟩ false _ (by simp [Calls]) (get_after (by decide +kernel))
  obtain ⟨victims, kept, hp, hk, hv⟩ := h2 rfl
  have e1 : WTinyLFULRU_cached (after (WTinyLFU.onLRU WTinyLFU_H) (WTinyLFU.initLRU 14 9 .none 64 2)
    [.get ⟨5, 4, -2⟩, .get ⟨2, 2, -2⟩, .get ⟨3, 5, -2⟩, .get ⟨1, 3, -2⟩, .get ⟨6, 2, -2⟩, .get ⟨3, 5, -2⟩]) = [(3, 5), (1, 3), (2, 2), (5, 4)] := by decide +kernel
  have e2 : WTinyLFULRU_cached (after (WTinyLFU.onLRU WTinyLFU_H) (after (WTinyLFU.onLRU WTinyLFU_H) (WTinyLFU.initLRU 14 9 .none 64 2)
    [.get ⟨5, 4, -2⟩, .get ⟨2, 2, -2⟩, .get ⟨3, 5, -2⟩, .get ⟨1, 3, -2⟩, .get ⟨6, 2, -2⟩, .get ⟨3, 5, -2⟩]) [.get ⟨7, 1, -2⟩]) = [(7, 1), (3, 5), (1, 3)] := by decide +kernel
  rw [e1] at hp
  rw [e2] at hk
  have hkept : kept.Perm [(3, 5), (1, 3)] := by
    rcases hk with hk | hk
    · exfalso
      have h4 : ((7, 1) : ObjId × Nat) ∈ [((3, 5) : ObjId × Nat), (1, 3), (2, 2), (5, 4)] := hp.symm.subset (List.mem_append_right _ (hk.subset (by simp)))
      simp at h4
    · exact ((List.perm_cons (7, 1)).1 hk).symm
  have hbk := bytes_eq_charge 0 kept
  rw [charge_perm hkept] at hbk
  have hlen := hp.length_eq
  rw [List.length_append, hkept.length_eq] at hlen
  rcases List.eq_nil_or_concat victims with rfl | ⟨vs, v, rfl⟩
  · simp at hlen
  · have h1 := hv vs v (by simp)
    have hvm : v ∈ [((3, 5) : ObjId × Nat), (1, 3), (2, 2), (5, 4)] := hp.symm.subset (by simp)
    have hv9 : v.2 ≤ 5 := by
      simp only [List.mem_cons, List.not_mem_nil, or_false] at hvm
      rcases hvm with rfl | rfl | rfl | rfl <;> simp
    have h3 : bytes 0 (v :: kept) = v.2 + bytes 0 kept := by simp [bytes]
    rw [h3, hbk] at h1
    simp [charge] at h1
    omega

/-- C65: the main cache does not stay within its share: a frequent object replaces a single, smaller victim (LRU and FIFO insert without making room). -/
theorem C65_mainSize_WTinyLFU_fails :
    ¬ ∀ (ops : List Op) (out : List Bool) (s : WTinyLFU.State LRU.State), (∀ op ∈ ops, Calls { ev := false, ins := false } (fun r => 0 < r.size) op) →
      Reaches (WTinyLFU.onLRU WTinyLFU_H) (WTinyLFU.initLRU 14 9 .none 64 2) ops out s → bytes 0 s.main.base.cached ≤ 9 := by
  intro h
  have := h _ _ _ (by simp [Calls]) (reaches_after (A := WTinyLFU.onLRU WTinyLFU_H) (s0 := WTinyLFU.initLRU 14 9 .none 64 2)
    (ops := [.get ⟨1, 1, -2⟩, .get ⟨2, 4, -2⟩, .get ⟨3, 4, -2⟩, .get ⟨4, 4, -2⟩, .get ⟨5, 1, -2⟩, .get ⟨6, 1, -2⟩, .get ⟨4, 4, -2⟩, .get ⟨7, 1, -2⟩, .get ⟨8, 1, -2⟩]) (out := List.replicate 9 false) (by decide +kernel))
  revert this
  decide +kernel

end Verif.Props
