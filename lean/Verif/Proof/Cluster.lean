import Verif.Example.Cluster
import Verif.Proof.DemandPaging
import Verif.Props.ConsistentHash
/-!
# The cache cluster: helper lemmas
-/

namespace Verif.Cluster
open Verif Verif.Spec Verif.CHash Verif.Props

variable {σ : Type}

/-- What the cluster needs from its caches: a request hits exactly on a cached object, and an object that fits is cached afterwards. -/
structure Sound (A : Algo σ) (mk : Nat → σ) (cached : σ → Contents) : Prop where
  hit : ∀ cs trace out s, A.gets (mk cs) trace = .ok (out, s) → ∀ r, ∃ s', A.get s r = .ok (decide (r.id ∈ (cached s).ids), s')
  keep : ∀ cs trace out s, A.gets (mk cs) trace = .ok (out, s) → ∀ r b s', r.size ≤ cs → A.get s r = .ok (b, s') → r.id ∈ (cached s').ids

/-- The cache has only been used through requests. -/
def Used (A : Algo σ) (mk : Nat → σ) (b : Box σ) : Prop := ∃ trace out, A.gets (mk b.size) trace = .ok (out, b.c)

structure Inv (A : Algo σ) (mk : Nat → σ) (md5 : Md5) (qs : Qsort) (w : Nat) (cl : Cluster σ) : Prop where
  weights : cl.weights = List.replicate cl.servers.length w
  ring : cl.servers = [] ∨ ∃ r, cl.ring = some r ∧ create md5 qs (digests (.inl cl.servers.length)) = .ok r
  caches : ∀ s ∈ cl.servers, ∀ b ∈ s.caches, Used A mk b

section
variable {A : Algo σ} {mk : Nat → σ} {cached : σ → Contents} (hs : Sound A mk cached)
include hs

theorem used_get {b : Box σ} (hb : Used A mk b) (r : Req) : ∃ c', A.get b.c r = .ok (decide (r.id ∈ (cached b.c).ids), c') ∧ Used A mk { b with c := c' } ∧
    (r.size ≤ b.size → r.id ∈ (cached c').ids) := by
  obtain ⟨trace, out, h⟩ := hb
  obtain ⟨c', hc⟩ := hs.hit _ _ _ _ h r
  refine ⟨c', hc, ⟨trace ++ [r], out ++ [decide (r.id ∈ (cached b.c).ids)], ?_⟩, fun hsz => hs.keep _ _ _ _ h r _ _ hsz hc⟩
  rw [← run_gets, List.map_append, run_append]
  have : A.run (mk b.size) (trace.map Op.get) = .ok (out, b.c) := by rw [run_gets]; exact h
  simp only [this, Res.bind_ok, List.map_cons, List.map_nil, Algo.run, Algo.step, hc]

theorem getFrom_spec (r : Req) : ∀ bs : List (Box σ), (∀ b ∈ bs, Used A mk b) →
    ∃ bs', getFrom A r bs = .ok (bs.any fun b => decide (r.id ∈ (cached b.c).ids), bs') ∧ (∀ b ∈ bs', Used A mk b) ∧ bs'.map Box.size = bs.map Box.size ∧
      (∀ b rest, bs = b :: rest → r.size ≤ b.size → ∃ b' rest', bs' = b' :: rest' ∧ r.id ∈ (cached b'.c).ids)
  | [], _ => ⟨[], rfl, by simp, rfl, by simp⟩
  | b :: bs, hu => by
    obtain ⟨c', h1, h2, h3⟩ := used_get hs (hu b List.mem_cons_self) r
    obtain ⟨bs', k1, k2, k3, _⟩ := getFrom_spec r bs fun b hb => hu b (List.mem_cons_of_mem _ hb)
    unfold getFrom
    simp only [h1, Res.bind_ok]
    by_cases hin : r.id ∈ (cached b.c).ids
    · refine ⟨{ b with c := c' } :: bs, by simp [hin], ?_, rfl, ?_⟩
      · intro x hx
        rcases List.mem_cons.1 hx with rfl | hx
        · exact h2
        · exact hu x (List.mem_cons_of_mem _ hx)
      · intro y rest he hsz
        cases he
        exact ⟨_, _, rfl, h3 hsz⟩
    · refine ⟨{ b with c := c' } :: bs', by simp [hin, k1], ?_, by simp [k3], ?_⟩
      · intro x hx
        rcases List.mem_cons.1 hx with rfl | hx
        · exact h2
        · exact k2 x hx
      · intro y rest he hsz
        cases he
        exact ⟨_, _, rfl, h3 hsz⟩

theorem server_get {s : Server σ} (hu : ∀ b ∈ s.caches, Used A mk b) (r : Req) :
    ∃ s', s.get A r = .ok (s.up && s.caches.any fun b => decide (r.id ∈ (cached b.c).ids), s') ∧ (∀ b ∈ s'.caches, Used A mk b) ∧ s'.up = s.up ∧ s'.caches.map Box.size = s.caches.map Box.size ∧
      (s.up = false → s' = s) ∧ (s.up = true → ∀ b rest, s.caches = b :: rest → r.size ≤ b.size → ∃ b' rest', s'.caches = b' :: rest' ∧ r.id ∈ (cached b'.c).ids) := by
  unfold Server.get
  by_cases hup : s.up = true
  · obtain ⟨bs', k1, k2, k3, k4⟩ := getFrom_spec hs r s.caches hu
    refine ⟨{ s with caches := bs' }, by simp [hup, k1], k2, rfl, k3, fun h => (by rw [hup] at h; cases h), fun _ => k4⟩
  · have hup' : s.up = false := by simpa using hup
    exact ⟨s, by simp [hup'], hu, rfl, rfl, fun _ => rfl, fun h => absurd h hup⟩

/-- One request to a cluster with servers. -/
theorem get_spec {md5 : Md5} {qs : Qsort} {w : Nat} {cl : Cluster σ} (hi : Inv A mk md5 qs w cl) (hn : 0 < cl.servers.length) (r : Req) :
    ∃ i s s', Owns (points md5 (digests (.inl cl.servers.length))) (hash md5 (idKey r.id)) i ∧ cl.servers[i]? = some s ∧
      (∀ ring, cl.ring = some ring → serverOfId md5 ring r.id = .ok i) ∧
      s.get A r = .ok (s.up && s.caches.any fun b => decide (r.id ∈ (cached b.c).ids), s') ∧
      cl.get A md5 r = .ok (s.up && s.caches.any fun b => decide (r.id ∈ (cached b.c).ids), { cl with servers := cl.servers.set i s' }) ∧
      Inv A mk md5 qs w { cl with servers := cl.servers.set i s' } := by
  obtain h0 | ⟨ring, h1, h2⟩ := hi.ring
  · rw [h0] at hn; simp at hn
  · obtain ⟨ring', h3, h4⟩ := C101_owner_CHash md5 qs cl.servers.length hn
    rw [h2] at h3
    cases h3
    obtain ⟨i, h5, h6, h7⟩ := h4 (idKey r.id)
    have hsi : cl.servers[i]? = some cl.servers[i] := List.getElem?_eq_getElem h6
    obtain ⟨s', k1, k2, k3, k4, k5, k6⟩ := server_get hs (hi.caches _ (List.getElem_mem h6)) r
    refine ⟨i, cl.servers[i], s', h7, hsi, ?_, k1, ?_, ?_⟩
    · intro ring' hr
      rw [h1] at hr
      cases hr
      exact h5
    · have h5' : serverOfId md5 ring r.id = .ok i := h5
      unfold Cluster.get
      simp only [h1, h5', Res.bind_ok, hsi, k1]
    · refine ⟨by simpa using hi.weights, ?_, ?_⟩
      · right
        exact ⟨ring, h1, by simpa using h2⟩
      · intro s hs' b hb
        rcases List.mem_or_eq_of_mem_set hs' with h | rfl
        · exact hi.caches s h b hb
        · exact k2 b hb

end

theorem inv_empty {A : Algo σ} {mk : Nat → σ} {md5 : Md5} {qs : Qsort} {w : Nat} : Inv A mk md5 qs w empty :=
  ⟨rfl, Or.inl rfl, by simp [empty]⟩

theorem add_spec {A : Algo σ} {mk : Nat → σ} {md5 : Md5} {qs : Qsort} {w : Nat} (hw : 0 < w) {cl : Cluster σ} (hi : Inv A mk md5 qs w cl) (sizes : List Nat) :
    ∃ ring, create md5 qs (digests (.inl (cl.servers.length + 1))) = .ok ring ∧
      cl.add md5 qs (newServer mk sizes) w = .ok (cl.servers.length, ⟨cl.servers ++ [newServer mk sizes], cl.weights ++ [w], some ring⟩) ∧
      Inv A mk md5 qs w ⟨cl.servers ++ [newServer mk sizes], cl.weights ++ [w], some ring⟩ := by
  have hws : cl.weights ++ [w] = List.replicate (cl.servers.length + 1) w := by rw [hi.weights, List.replicate_succ']
  obtain ⟨ring, h1, _⟩ := C101_owner_CHash md5 qs (cl.servers.length + 1) (by omega)
  refine ⟨ring, h1, ?_, ?_⟩
  · unfold Cluster.add
    simp only [hws, C101_equalWeights_CHash _ w hw, h1, Res.bind_ok]
  · refine ⟨by simpa using hws, Or.inr ⟨ring, rfl, by simpa using h1⟩, ?_⟩
    intro s hs b hb
    rcases List.mem_append.1 hs with h | h
    · exact hi.caches s h b hb
    · simp at h
      subst h
      simp only [newServer, List.mem_map] at hb
      obtain ⟨n, _, rfl⟩ := hb
      exact ⟨[], [], rfl⟩

theorem remove_spec {A : Algo σ} {mk : Nat → σ} {md5 : Md5} {qs : Qsort} {w : Nat} (hw : 0 < w) {cl : Cluster σ} (hi : Inv A mk md5 qs w cl) {i : Nat} (hlt : i < cl.servers.length) :
    ∃ ring, create md5 qs (digests (.inl (cl.servers.length - 1))) = .ok ring ∧
      cl.remove md5 qs i = .ok ((cl.servers.length - 1 + 2 ^ 64 - 1) % 2 ^ 64, ⟨cl.servers.eraseIdx i, cl.weights.eraseIdx i, some ring⟩) ∧
      Inv A mk md5 qs w ⟨cl.servers.eraseIdx i, cl.weights.eraseIdx i, some ring⟩ := by
  have hws : cl.weights.eraseIdx i = List.replicate (cl.servers.length - 1) w := by rw [hi.weights, List.eraseIdx_replicate, if_pos hlt]
  obtain ⟨ring, h1, _⟩ := create_full (md5 := md5) (qs := qs) (full_digests (cl.servers.length - 1))
  have hlen : (cl.servers.eraseIdx i).length = cl.servers.length - 1 := List.length_eraseIdx_of_lt hlt
  refine ⟨ring, h1, ?_, ?_⟩
  · unfold Cluster.remove
    rw [if_neg (by omega)]
    simp only [hws, C101_equalWeights_CHash _ w hw, h1, Res.bind_ok]
  · refine ⟨by simpa [hlen] using hws, Or.inr ⟨ring, rfl, by simpa [hlen] using h1⟩, ?_⟩
    intro s hs b hb
    exact hi.caches s (List.mem_of_mem_eraseIdx hs) b hb

theorem setUp_spec {A : Algo σ} {mk : Nat → σ} {md5 : Md5} {qs : Qsort} {w : Nat} {cl : Cluster σ} (hi : Inv A mk md5 qs w cl) {i : Nat} (hlt : i < cl.servers.length) (up : Bool) :
    ∃ cl', cl.setUp i up = .ok (up, cl') ∧ Inv A mk md5 qs w cl' ∧ cl'.servers.length = cl.servers.length := by
  have hsi : cl.servers[i]? = some cl.servers[i] := List.getElem?_eq_getElem hlt
  refine ⟨_, by unfold Cluster.setUp; rw [hsi], ⟨by simpa using hi.weights, ?_, ?_⟩, by simp⟩
  · obtain h0 | ⟨ring, h1, h2⟩ := hi.ring
    · rw [h0] at hlt; simp at hlt
    · exact Or.inr ⟨ring, h1, by simpa using h2⟩
  · intro s hs b hb
    rcases List.mem_or_eq_of_mem_set hs with h | rfl
    · exact hi.caches s h b hb
    · exact hi.caches _ (List.getElem_mem hlt) b hb

theorem inv_step {A : Algo σ} {mk : Nat → σ} {cached : σ → Contents} (hs : Sound A mk cached) {md5 : Md5} {qs : Qsort} {w : Nat} (hw : 0 < w) {cl : Cluster σ} (hi : Inv A mk md5 qs w cl) (c : Call) {cl' : Cluster σ}
    (h : cl.step A mk md5 qs w c = .ok cl') : Inv A mk md5 qs w cl' := by
  cases c with
  | add sizes =>
    obtain ⟨ring, h1, h2, h3⟩ := add_spec hw hi sizes
    rw [Cluster.step, h2] at h
    cases h
    exact h3
  | remove i =>
    by_cases hlt : i < cl.servers.length
    · obtain ⟨ring, h1, h2, h3⟩ := remove_spec hw hi hlt
      rw [Cluster.step, h2] at h
      cases h
      exact h3
    · rw [Cluster.step, Cluster.remove, if_pos (by omega)] at h
      cases h
      exact hi
  | fail i =>
    by_cases hlt : i < cl.servers.length
    · obtain ⟨cl2, h1, h2, _⟩ := setUp_spec hi hlt false
      rw [Cluster.step, h1] at h
      cases h
      exact h2
    · rw [Cluster.step, Cluster.setUp, List.getElem?_eq_none (by omega)] at h
      cases h
  | recover i =>
    by_cases hlt : i < cl.servers.length
    · obtain ⟨cl2, h1, h2, _⟩ := setUp_spec hi hlt true
      rw [Cluster.step, h1] at h
      cases h
      exact h2
    · rw [Cluster.step, Cluster.setUp, List.getElem?_eq_none (by omega)] at h
      cases h
  | get r =>
    by_cases hn : 0 < cl.servers.length
    · obtain ⟨i, s, s', _, _, _, _, h1, h2⟩ := get_spec hs hi hn r
      rw [Cluster.step, h1] at h
      cases h
      exact h2
    · have hz : cl.servers = [] := List.length_eq_zero_iff.1 (by omega)
      rw [Cluster.step, Cluster.get] at h
      cases hr : cl.ring with
      | none => rw [hr] at h; cases h
      | some ring =>
        rw [hr] at h
        simp only at h
        cases hsv : serverOfId md5 ring r.id with
        | error e => rw [hsv] at h; cases h
        | ok i => rw [hsv] at h; simp only [Res.bind_ok, hz, List.getElem?_nil] at h; cases h

theorem inv_run {A : Algo σ} {mk : Nat → σ} {cached : σ → Contents} (hs : Sound A mk cached) {md5 : Md5} {qs : Qsort} {w : Nat} (hw : 0 < w) : ∀ (calls : List Call) {cl cl' : Cluster σ},
    Inv A mk md5 qs w cl → cl.run A mk md5 qs w calls = .ok cl' → Inv A mk md5 qs w cl'
  | [], cl, cl', hi, h => by cases h; exact hi
  | c :: cs, cl, cl', hi, h => by
    unfold Cluster.run at h
    cases h1 : cl.step A mk md5 qs w c with
    | error e => rw [h1] at h; cases h
    | ok cl1 =>
      rw [h1] at h
      exact inv_run hs hw cs (inv_step hs hw hi c h1) h

end Verif.Cluster
