import Verif.Proof.Cluster
import Verif.Props.LRU
import Verif.Props.FIFO
/-!
# C102: the cache cluster example

Which server answers a request, when it is a hit, and what adding, removing and failing servers do. For every history of calls on a cluster whose servers all have the same weight, with LRU or
FIFO caches; `cached` gives the contents of one cache.
-/

namespace Verif.Props
open Verif Verif.Spec Verif.CHash Verif.Cluster
set_option linter.unusedVariables false

theorem sound_of {σ : Type} {A : Algo σ} {cached : σ → Contents} {mk : Nat → σ} {admits : σ → Req → Bool} (hhit : ∀ cs, HitIffCached A cached (mk cs) (Calls {} (SizeOk 0)))
    (hmiss : ∀ cs, AdmittedMissCached A cached admits (mk cs) (Calls {} (SizeOk 0))) (hev : ∀ cs, EvictOnDemand A cached (mk cs) (Calls {} (SizeOk 0)) cs 0)
    (hadm : ∀ cs trace out s, A.gets (mk cs) trace = .ok (out, s) → ∀ r : Req, r.size ≤ cs → admits s r = true) : Sound A mk cached := by
  have hok : ∀ r, Calls {} (SizeOk 0) (.get r) := fun r => by
    show r.size % u32 + 0 < u32
    have := Nat.mod_lt r.size (show 0 < u32 by decide)
    omega
  have hoks : ∀ trace : List Req, ∀ op ∈ trace.map Op.get, Calls {} (SizeOk 0) op := fun trace op h => by
    obtain ⟨r, _, rfl⟩ := List.mem_map.1 h
    exact hok r
  refine ⟨fun cs trace out s h r => ?_, fun cs trace out s h r b s' hsz hg => ?_⟩
  · exact (hhit cs _ _ _ (hoks trace) (by rw [Reaches, run_gets]; exact h)).2.2 r (hok r)
  · have hre : Reaches A (mk cs) (trace.map Op.get) out s := by rw [Reaches, run_gets]; exact h
    obtain ⟨s2, h2⟩ := (hhit cs _ _ _ (hoks trace) hre).2.2 r (hok r)
    rw [hg] at h2
    have hb : b = decide (r.id ∈ (cached s).ids) := congrArg Prod.fst (Except.ok.inj h2)
    by_cases hin : r.id ∈ (cached s).ids
    · have hp := (hev cs _ _ _ (hoks trace) hre r b s' (hok r) hg).1 (by rw [hb]; simpa using hin)
      exact (hp.map Prod.fst).mem_iff.2 hin
    · obtain ⟨s3, h3, h4⟩ := hmiss cs _ _ _ (hoks trace) hre r (hok r) hin (hadm cs trace out s h r hsz)
      rw [hg] at h3
      have : s' = s3 := congrArg Prod.snd (Except.ok.inj h3)
      rw [this]
      exact List.mem_map.2 ⟨_, h4, rfl⟩

theorem sound_LRU : Sound LRU.algo (fun cs => LRU.init cs 0 .none) LRU_cached :=
  sound_of (fun cs => C03_hitIffCached_LRU cs 0 .none) (fun cs => C05_admittedMissCached_LRU cs 0 .none) (fun cs => C06_evictOnDemand_LRU cs 0 .none)
    (fun cs trace out s h r hsz => by
      have hok : ∀ op ∈ trace.map Op.get, Calls {} (SizeOk 0) op := fun op h => by
        obtain ⟨r, _, rfl⟩ := List.mem_map.1 h
        show r.size % u32 + 0 < u32
        have := Nat.mod_lt r.size (show 0 < u32 by decide)
        omega
      have hre : Reaches LRU.algo (LRU.init cs 0 .none) (trace.map Op.get) out s := by rw [Reaches, run_gets]; exact h
      have hi := (LRU.strong cs 0).reach (QInv.init cs 0 .none) hok hre
      obtain ⟨out', s', h1, h2⟩ := C11_lru_LRU cs 0 .none _ hok
      have e : s' = s := by unfold Reaches at hre h1; rw [hre] at h1; cases h1; rfl
      subst e
      have ha := trun_none lru cs 0 (trace.map Op.get) ⟨[], .none⟩ rfl
      rw [h2] at ha
      have h5 := (LRU.strong cs 0).csz hi
      have h6 := (LRU.strong cs 0).mdz hi
      simp only at ha
      show admitsBase s'.base r = true
      have h5' : s'.base.cacheSize = cs := h5
      have h6' : s'.base.objMd = 0 := h6
      simp [admitsBase, ha, h5', h6', Adm.admit, hsz])

theorem sound_FIFO : Sound FIFO.algo (fun cs => FIFO.init cs 0 .none) FIFO_cached :=
  sound_of (fun cs => C03_hitIffCached_FIFO cs 0 .none) (fun cs => C05_admittedMissCached_FIFO cs 0 .none) (fun cs => C06_evictOnDemand_FIFO cs 0 .none)
    (fun cs trace out s h r hsz => by
      have hok : ∀ op ∈ trace.map Op.get, Calls {} (SizeOk 0) op := fun op h => by
        obtain ⟨r, _, rfl⟩ := List.mem_map.1 h
        show r.size % u32 + 0 < u32
        have := Nat.mod_lt r.size (show 0 < u32 by decide)
        omega
      have hre : Reaches FIFO.algo (FIFO.init cs 0 .none) (trace.map Op.get) out s := by rw [Reaches, run_gets]; exact h
      have hi := (FIFO.strong cs 0).reach (QInv.init cs 0 .none) hok hre
      obtain ⟨out', s', h1, h2⟩ := C13_fifo_FIFO cs 0 .none _ hok
      have e : s' = s := by unfold Reaches at hre h1; rw [hre] at h1; cases h1; rfl
      subst e
      have ha := trun_none fifo cs 0 (trace.map Op.get) ⟨[], .none⟩ rfl
      rw [h2] at ha
      have h5 := (FIFO.strong cs 0).csz hi
      have h6 := (FIFO.strong cs 0).mdz hi
      simp only at ha
      show admitsBase s'.base r = true
      have h5' : s'.base.cacheSize = cs := h5
      have h6' : s'.base.objMd = 0 := h6
      simp [admitsBase, ha, h5', h6', Adm.admit, hsz])

section
variable {σ : Type} {A : Algo σ} {mk : Nat → σ} {cached : σ → Contents} (hs : Sound A mk cached) (md5 : Md5) (qs : Qsort) (w : Nat) (hw : 0 < w) (calls : List Call) (cl : Cluster σ)
  (hr : Cluster.run A mk md5 qs w empty calls = .ok cl)
include hs hw hr

/-- Requests to a cluster with at least one server, adding a server, removing one, and failing or recovering a server that exists never fault. -/
theorem C102_safe_Cluster : (0 < cl.servers.length → ∀ r, ∃ p, cl.get A md5 r = .ok p) ∧ (∀ sizes, ∃ p, cl.add md5 qs (newServer mk sizes) w = .ok p) ∧
    (∀ i, ∃ p, cl.remove md5 qs i = .ok p) ∧ ∀ i up, i < cl.servers.length → ∃ p, cl.setUp i up = .ok p := by
  have hi := inv_run hs hw calls inv_empty hr
  refine ⟨fun hn r => ?_, fun sizes => ?_, fun i => ?_, fun i up hlt => ?_⟩
  · obtain ⟨i, s, s', _, _, _, _, h, _⟩ := get_spec hs hi hn r
    exact ⟨_, h⟩
  · obtain ⟨ring, _, h, _⟩ := add_spec hw hi sizes
    exact ⟨_, h⟩
  · by_cases hlt : i < cl.servers.length
    · obtain ⟨ring, _, h, _⟩ := remove_spec hw hi hlt
      exact ⟨_, h⟩
    · exact ⟨_, by unfold Cluster.remove; rw [if_pos (by omega)]⟩
  · obtain ⟨cl', h, _⟩ := setUp_spec hi hlt up
    exact ⟨_, h⟩

/-- A request goes to the server responsible for the object and touches no other server. It is a hit if that server is up and one of its caches has the object. -/
theorem C102_get_Cluster (hn : 0 < cl.servers.length) (r : Req) :
    ∃ i s s', Owns (points md5 (digests (.inl cl.servers.length))) (hash md5 (idKey r.id)) i ∧ cl.servers[i]? = some s ∧
      cl.get A md5 r = .ok (s.up && s.caches.any fun b => decide (r.id ∈ (cached b.c).ids), { cl with servers := cl.servers.set i s' }) ∧ (s.up = false → s' = s) := by
  have hi := inv_run hs hw calls inv_empty hr
  obtain ⟨i, s, s', h1, h2, _, h3, h4, _⟩ := get_spec hs hi hn r
  refine ⟨i, s, s', h1, h2, h4, fun hup => ?_⟩
  rw [Server.get, hup] at h3
  simp at h3
  exact h3.symm

/-- The server keeps what it is asked for: if the server that answered is up and its first cache is large enough for the object, the next request for the object is a hit. -/
theorem C102_again_Cluster (hn : 0 < cl.servers.length) (r r' : Req) (hid : r'.id = r.id) (b : Bool) (cl' : Cluster σ) (h : cl.get A md5 r = .ok (b, cl'))
    (hup : ∀ s ∈ cl.servers, s.up = true ∧ ∃ c rest, s.caches = c :: rest ∧ r.size ≤ c.size) : ∃ cl'', cl'.get A md5 r' = .ok (true, cl'') := by
  have hi := inv_run hs hw calls inv_empty hr
  obtain ⟨i, s, s', h1, h2, h2', h3, h4, h5⟩ := get_spec hs hi hn r
  rw [h] at h4
  have e : cl' = { cl with servers := cl.servers.set i s' } := congrArg Prod.snd (Except.ok.inj h4)
  have hlt : i < cl.servers.length := by
    by_contra hc
    rw [List.getElem?_eq_none (by omega)] at h2
    cases h2
  have hmem : s ∈ cl.servers := List.mem_of_getElem? h2
  obtain ⟨hu, c, rest, hc, hsz⟩ := hup s hmem
  obtain ⟨s2, k1, _, k3, _, _, k6⟩ := server_get hs (hi.caches s hmem) r
  rw [h3] at k1
  have e2 : s' = s2 := congrArg Prod.snd (Except.ok.inj k1)
  obtain ⟨b', rest', q1, q2⟩ := k6 hu c rest hc hsz
  have hn' : 0 < cl'.servers.length := by rw [e]; simpa using hn
  rw [← e] at h5
  obtain ⟨j, t, t', g1, g2, g2', g3, g4, _⟩ := get_spec hs h5 hn' r'
  obtain h0 | ⟨ring, hring, _⟩ := hi.ring
  · rw [h0] at hn; simp at hn
  · have hij : j = i := by
      have a := h2' ring hring
      have b := g2' ring (by rw [e]; exact hring)
      rw [hid, a] at b
      exact (Except.ok.inj b).symm
    have ht : t = s' := by
      rw [hij, e] at g2
      simp only [List.getElem?_set, hlt, if_true] at g2
      exact (Option.some.inj g2).symm
    have ht2 : (t.up && t.caches.any fun b => decide (r'.id ∈ (cached b.c).ids)) = true := by
      rw [ht, e2, k3, hu, q1, hid]
      simp [q2]
    rw [ht2] at g4
    exact ⟨_, g4⟩

/-- Adding a server: the others and their contents stay, and an object keeps its server or goes to the new one (if no two servers share a point). -/
theorem C102_add_Cluster (hn : 0 < cl.servers.length) (sizes : List Nat) (k : Nat) (cl' : Cluster σ) (h : cl.add md5 qs (newServer mk sizes) w = .ok (k, cl'))
    (hc : NoCollision (points md5 (digests (.inl (cl.servers.length + 1))))) : k = cl.servers.length ∧ cl'.servers = cl.servers ++ [newServer mk sizes] ∧
      ∀ ring ring', cl.ring = some ring → cl'.ring = some ring' → ∀ id i i', serverOfId md5 ring id = .ok i → serverOfId md5 ring' id = .ok i' → i' = i ∨ i' = cl.servers.length := by
  have hi := inv_run hs hw calls inv_empty hr
  obtain ⟨ring2, h1, h2, _⟩ := add_spec hw hi sizes
  rw [h] at h2
  cases h2
  refine ⟨rfl, rfl, fun ring ring' hr1 hr2 id i i' hi1 hi2 => ?_⟩
  cases hr2
  obtain h0 | ⟨ring3, h3, h4⟩ := hi.ring
  · rw [h0] at hn; simp at hn
  · rw [hr1] at h3
    cases h3
    exact C101_monotone_CHash md5 qs qs _ hn ring ring2 h4 h1 hc _ i i' hi1 hi2

/-- Removing the last server: only its objects move. -/
theorem C102_removeLast_Cluster_partial (hn : 1 < cl.servers.length) (k : Nat) (cl' : Cluster σ) (h : cl.remove md5 qs (cl.servers.length - 1) = .ok (k, cl'))
    (hc : NoCollision (points md5 (digests (.inl cl.servers.length)))) : cl'.servers = cl.servers.dropLast ∧
      ∀ ring ring', cl.ring = some ring → cl'.ring = some ring' → ∀ id i i', serverOfId md5 ring id = .ok i → serverOfId md5 ring' id = .ok i' → i' = i ∨ i = cl.servers.length - 1 := by
  have hi := inv_run hs hw calls inv_empty hr
  obtain ⟨ring2, h1, h2, _⟩ := remove_spec hw hi (show cl.servers.length - 1 < cl.servers.length by omega)
  rw [h] at h2
  have e2 := congrArg Prod.snd (Except.ok.inj h2)
  simp only at e2
  subst e2
  refine ⟨List.eraseIdx_length_sub_one, fun ring ring' hr1 hr2 id i i' hi1 hi2 => ?_⟩
  cases hr2
  obtain h0 | ⟨ring3, h3, h4⟩ := hi.ring
  · rw [h0] at hn; simp at hn
  · rw [hr1] at h3
    cases h3
    have e : cl.servers.length - 1 + 1 = cl.servers.length := by omega
    rcases C101_monotone_CHash md5 qs qs _ (show 0 < cl.servers.length - 1 by omega) ring2 ring h1 (by rw [e]; exact h4) (by rw [e]; exact hc) _ i' i hi2 hi1 with h | h
    · exact Or.inl h.symm
    · exact Or.inr h

/-- C102 fails for any other server: after server `j` has been removed, every object of a remaining server `i` above `j`, except the last one, is sent to the server that was number `i + 1`;
what `i` had cached for it is not found any more. -/
theorem C102_remove_fails_Cluster (j : Nat) (hj : j < cl.servers.length) (hn : 1 < cl.servers.length) (k : Nat) (cl' : Cluster σ) (h : cl.remove md5 qs j = .ok (k, cl'))
    (hc : NoCollision (points md5 (digests (.inl cl.servers.length)))) :
      ∀ ring ring', cl.ring = some ring → cl'.ring = some ring' → ∀ id i i', j < i → i < cl.servers.length - 1 → serverOfId md5 ring id = .ok i → serverOfId md5 ring' id = .ok i' →
        cl'.servers[i']? = cl.servers[i + 1]? := by
  have hi := inv_run hs hw calls inv_empty hr
  obtain ⟨ring2, h1, h2, _⟩ := remove_spec hw hi hj
  rw [h] at h2
  have e2 := congrArg Prod.snd (Except.ok.inj h2)
  simp only at e2
  subst e2
  intro ring ring' hr1 hr2 id i i' hji hin hi1 hi2
  cases hr2
  obtain h0 | ⟨ring3, h3, h4⟩ := hi.ring
  · rw [h0] at hn; simp at hn
  · rw [hr1] at h3
    cases h3
    have e : cl.servers.length - 1 + 1 = cl.servers.length := by omega
    rcases C101_monotone_CHash md5 qs qs _ (show 0 < cl.servers.length - 1 by omega) ring2 ring h1 (by rw [e]; exact h4) (by rw [e]; exact hc) _ i' i hi2 hi1 with h | h
    · subst h
      rw [List.getElem?_eraseIdx_of_ge (by omega)]
    · omega

end

/-- C102 fails on a cluster that has lost its last server: the ring has no points, and a request reads beyond it. On a cluster that never had one the ring is a null pointer. -/
theorem C102_noServer_fails_Cluster : (LRU.algo |> fun A => (Cluster.run A (fun cs => LRU.init cs 0 .none) toyMd5 isort 1 empty [.add [10], .remove 0, .get ⟨1, 1, -2⟩]).map fun _ => ()) = .error .outOfBounds ∧
    ((Cluster.run LRU.algo (fun cs => LRU.init cs 0 .none) toyMd5 isort 1 empty [.get ⟨1, 1, -2⟩]).map fun _ => ()) = .error .nullDeref := by
  decide +kernel

abbrev clusterLRU (n : Nat) : Nat → LRU.State := fun cs => LRU.init cs n .none

/-- three servers with two caches each; after object 8 has been requested it is in both caches of server 1 -/
example : ((Cluster.run LRU.algo (clusterLRU 0) toyMd5 isort 1 empty [.add [2, 10], .add [2, 10], .add [2, 10], .get ⟨7, 1, -2⟩, .get ⟨8, 1, -2⟩, .fail 1]).map fun cl =>
    cl.servers.map fun s => (s.up, s.caches.map fun b => (b.size, (LRU_cached b.c).ids))) =
    .ok [(true, [(2, []), (10, [])]), (false, [(2, [8]), (10, [8])]), (true, [(2, [7]), (10, [7])])] := by decide +kernel

/-- C102 fails, seen by a client: object 8 is a hit; a server that has nothing to do with it is removed; object 8 is a miss. -/
theorem C102_removeLoses_fails_Cluster : (do
    let cl ← Cluster.run LRU.algo (clusterLRU 0) toyMd5 isort 1 empty [.add [2, 10], .add [2, 10], .add [2, 10], .get ⟨8, 1, -2⟩]
    let a ← cl.get LRU.algo toyMd5 ⟨8, 1, -2⟩
    let b ← a.2.remove toyMd5 isort 0
    let c ← b.2.get LRU.algo toyMd5 ⟨8, 1, -2⟩
    .ok (a.1, c.1)) = (.ok (true, false) : Res (Bool × Bool)) ∧ NoCollision (points toyMd5 (digests (.inl 3))) :=
  ⟨by decide +kernel, toy_noCollision⟩

end Verif.Props
