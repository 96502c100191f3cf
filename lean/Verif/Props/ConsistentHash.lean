import Verif.Proof.ConsistentHash
import Mathlib.Data.List.Sort
/-!
# C101: the consistent hash ring of the cluster example

Who serves a key, which servers follow on the ring, and what a new server changes. For every hash function in the place of MD5 and every `qsort`.
-/

namespace Verif.Props
open Verif Verif.Spec Verif.CHash
set_option linter.unusedVariables false

/-- The ring is made of 160 points per server: `md5("i-k")` gives four of the points of server `i` for every `k < 40`. -/
theorem C101_points_CHash (md5 : Md5) (n : Nat) (v : Point) :
    v ∈ points md5 (digests (.inl n)) ↔ v.server < n ∧ ∃ k < 40, ∃ h : Fin 4, v.point = word (md5 (label v.server k)) h := by
  have e : digests (.inl n) = List.replicate n 40 := rfl
  rw [mem_points_iff, e, List.length_replicate]
  constructor
  · rintro ⟨h1, h2⟩
    refine ⟨h1, ?_⟩
    have hg : (List.replicate n 40).getD v.server 0 = 40 := by simp [List.getD, h1]
    rw [hg] at h2
    simp only [serverPoints, List.mem_flatMap, List.mem_range, List.mem_map] at h2
    obtain ⟨k, hk, h, _, he⟩ := h2
    exact ⟨k, hk, h, by conv_lhs => rw [← he]⟩
  · rintro ⟨h1, k, hk, h, he⟩
    refine ⟨h1, ?_⟩
    have hg : (List.replicate n 40).getD v.server 0 = 40 := by simp [List.getD, h1]
    rw [hg]
    simp only [serverPoints, List.mem_flatMap, List.mem_range, List.mem_map]
    exact ⟨k, hk, h, List.mem_finRange h, by cases v; simp only at he ⊢; rw [he]⟩

/-- With the same weight for every server, or none, the ring is the same. -/
theorem C101_equalWeights_CHash (n w : Nat) (hw : 0 < w) : digests (.inr (List.replicate n w)) = digests (.inl n) := by
  simp only [digests, List.map_replicate, List.length_replicate, List.sum_replicate, perServer]
  rcases Nat.eq_zero_or_pos n with rfl | hn
  · rfl
  · congr 1
    show w * n * (160 / 4) / (n * w) = 160 / 4
    rw [Nat.mul_comm n w]
    exact Nat.mul_div_cancel_left _ (Nat.mul_pos hw hn)

theorem full_digests (n : Nat) : (digests (.inl n)).sum = 40 * (digests (.inl n)).length := by
  simp [digests, perServer]
  omega

/-- Every key has a server, and it is the one responsible for it. Creating the ring and asking it never fault. -/
theorem C101_owner_CHash (md5 : Md5) (qs : Qsort) (n : Nat) (hn : 0 < n) : ∃ r, create md5 qs (digests (.inl n)) = .ok r ∧
    ∀ key, ∃ s, server md5 r key = .ok s ∧ s < n ∧ Owns (points md5 (digests (.inl n))) (hash md5 key) s := by
  obtain ⟨r, h1, h2, _⟩ := create_full (md5 := md5) (qs := qs) (full_digests n)
  refine ⟨r, h1, fun key => ?_⟩
  have hpos : 0 < (qs.f (points md5 (digests (.inl n)))).length := by
    rw [(qs.perm _).length_eq, points_length, full_digests]
    simp [digests]
    omega
  obtain ⟨i, h3, h4⟩ := vnodeIdx_good (md5 := md5) h2 hpos key
  obtain ⟨hi, h5⟩ := h4.isNext h2
  have h6 := CHash.IsNext.perm (qs.perm _) h5
  refine ⟨_, ?_, ?_, ⟨_, h6, rfl⟩⟩
  · simp only [server, h3, Res.bind_ok, h2.read i hi]
  · have := (mem_points h6.1).1
    simpa [digests] using this

/-- Without collisions the server is determined. -/
theorem C101_determined_CHash (md5 : Md5) (qs : Qsort) (n : Nat) (r : Ring) (h : create md5 qs (digests (.inl n)) = .ok r) (hc : NoCollision (points md5 (digests (.inl n))))
    (key : List Nat) (s : Nat) (hn : 0 < n) : server md5 r key = .ok s ↔ Owns (points md5 (digests (.inl n))) (hash md5 key) s := by
  obtain ⟨r', h1, h2⟩ := C101_owner_CHash md5 qs n hn
  rw [h] at h1
  cases h1
  obtain ⟨t, h3, _, h4⟩ := h2 key
  rw [h3]
  constructor
  · intro e; cases e; exact h4
  · intro e; rw [owns_unique hc e h4]

/-- One more server: a key stays where it is or goes to the new server. -/
theorem C101_monotone_CHash (md5 : Md5) (qs qs' : Qsort) (n : Nat) (hn : 0 < n) (r r' : Ring) (h : create md5 qs (digests (.inl n)) = .ok r) (h' : create md5 qs' (digests (.inl (n + 1))) = .ok r')
    (hc : NoCollision (points md5 (digests (.inl (n + 1))))) (key : List Nat) (s s' : Nat) (hs : server md5 r key = .ok s) (hs' : server md5 r' key = .ok s') : s' = s ∨ s' = n := by
  obtain ⟨v, hv, hvs⟩ := (C101_determined_CHash md5 qs' (n + 1) r' h' hc key s' (by omega)).1 hs'
  by_cases he : s' = n
  · exact Or.inr he
  · left
    have hsub : ∀ w ∈ points md5 (digests (.inl n)), w ∈ points md5 (digests (.inl (n + 1))) := by
      intro w hw
      rw [C101_points_CHash] at hw ⊢
      exact ⟨by omega, hw.2⟩
    have hc' : NoCollision (points md5 (digests (.inl n))) := fun a ha b hb => hc a (hsub a ha) b (hsub b hb)
    have hm : v ∈ points md5 (digests (.inl n)) := by
      have := (C101_points_CHash md5 (n + 1) v).1 hv.1
      rw [C101_points_CHash]
      exact ⟨by omega, this.2⟩
    have := (C101_determined_CHash md5 qs n r h hc' key s' hn).2 ⟨v, owns_sublist hsub hv hm, hvs⟩
    rw [hs] at this
    cases this
    rfl

theorem walk {md5 : Md5} {qs : Qsort} {n : Nat} (hn : 0 < n) {r : Ring} (h : create md5 qs (digests (.inl n)) = .ok r) (key : List Nat) (m : Nat) (down : List Bool) (hd : down.length = n) :
    ∃ order, Clockwise (points md5 (digests (.inl n))) (hash md5 key) order ∧
      availableServers md5 r key m down =
        (if m ≤ ((List.range n).filter fun s => !down.getD s false).length then .ok ((firsts (fun s => down.getD s false) (order.map Point.server)).take m) else .error .abort) := by
  obtain ⟨r', h1, h2, _⟩ := create_full (md5 := md5) (qs := qs) (full_digests n)
  rw [h] at h1
  cases h1
  have hpos : 0 < (qs.f (points md5 (digests (.inl n)))).length := by
    rw [(qs.perm _).length_eq, points_length, full_digests]
    simp [digests]
    omega
  obtain ⟨i, h3, h4⟩ := vnodeIdx_good (md5 := md5) h2 hpos key
  refine ⟨_, ⟨_, qs.perm _, qs.sorted _, rfl⟩, ?_⟩
  have hsrv : ∀ v ∈ qs.f (points md5 (digests (.inl n))), v.server < down.length := by
    intro v hv
    rw [hd]
    exact ((C101_points_CHash md5 n v).1 ((qs.perm _).mem_iff.1 hv)).1
  have h5 := collect_spec h2 hpos i (r.nPoint + 2) 0 down m hsrv (Nat.zero_le _) (by rw [h2.len]; omega)
  rw [List.drop_zero, h4.clockwise h2] at h5
  have hlen : (firsts (fun s => down.getD s false) (((qs.f (points md5 (digests (.inl n)))).filter (fun v => decide (hash md5 key ≤ v.point)) ++
      (qs.f (points md5 (digests (.inl n)))).filter (fun v => decide (v.point < hash md5 key))).map Point.server)).length = ((List.range n).filter fun s => !down.getD s false).length := by
    apply List.Perm.length_eq
    refine (List.perm_ext_iff_of_nodup (nodup_firsts _ _) (List.nodup_range.filter _)).2 fun s => ?_
    rw [mem_firsts, List.mem_filter, List.mem_range]
    have hmem : s ∈ ((qs.f (points md5 (digests (.inl n)))).filter (fun v => decide (hash md5 key ≤ v.point)) ++
      (qs.f (points md5 (digests (.inl n)))).filter (fun v => decide (v.point < hash md5 key))).map Point.server ↔ s < n := by
      simp only [List.mem_map, List.mem_append, List.mem_filter, decide_eq_true_eq]
      constructor
      · rintro ⟨v, hv, rfl⟩
        have : v ∈ qs.f (points md5 (digests (.inl n))) := by rcases hv with hv | hv <;> exact hv.1
        have := hsrv v this
        omega
      · intro hs
        have hv : (⟨word (md5 (label s 0)) 0, s⟩ : Point) ∈ qs.f (points md5 (digests (.inl n))) :=
          (qs.perm _).mem_iff.2 ((C101_points_CHash md5 n _).2 ⟨hs, 0, by decide, 0, rfl⟩)
        refine ⟨⟨word (md5 (label s 0)) 0, s⟩, ?_, rfl⟩
        by_cases hle : hash md5 key ≤ word (md5 (label s 0)) 0
        · exact Or.inl ⟨hv, hle⟩
        · exact Or.inr ⟨hv, by simp only; omega⟩
    rw [hmem]
    simp
  rw [hlen] at h5
  simp only [availableServers, h3, Res.bind_ok]
  exact h5

/-- ch_ring_get_available_servers: asked for `m` servers, it gives the first `m` different available servers met clockwise from the key; if there are fewer it aborts. -/
theorem C101_available_CHash (md5 : Md5) (qs : Qsort) (n : Nat) (hn : 0 < n) (r : Ring) (h : create md5 qs (digests (.inl n)) = .ok r) (key : List Nat) (m : Nat) (down : List Bool) (hd : down.length = n) :
    ∃ order, Clockwise (points md5 (digests (.inl n))) (hash md5 key) order ∧
      availableServers md5 r key m down =
        (if m ≤ ((List.range n).filter fun s => !down.getD s false).length then .ok ((firsts (fun s => down.getD s false) (order.map Point.server)).take m) else .error .abort) :=
  walk hn h key m down hd

/-- The answer consists of `m` different servers that are available. -/
theorem C101_distinct_CHash (md5 : Md5) (qs : Qsort) (n : Nat) (hn : 0 < n) (r : Ring) (h : create md5 qs (digests (.inl n)) = .ok r) (key : List Nat) (m : Nat) (down : List Bool) (hd : down.length = n)
    (out : List Nat) (ho : availableServers md5 r key m down = .ok out) : out.length = m ∧ out.Nodup ∧ ∀ s ∈ out, s < n ∧ down.getD s false = false := by
  obtain ⟨order, ⟨L, hp, _, hL⟩, h1⟩ := walk hn h key m down hd
  rw [ho] at h1
  split at h1
  · next hm =>
    have h1' : out = (firsts (fun s => down.getD s false) (order.map Point.server)).take m := Except.ok.inj h1
    have hmem : ∀ s ∈ out, s < n ∧ down.getD s false = false := by
      intro s hs
      rw [h1'] at hs
      obtain ⟨a, b⟩ := (mem_firsts _ _ _).1 (List.mem_of_mem_take hs)
      refine ⟨?_, b⟩
      obtain ⟨v, hv, rfl⟩ := List.mem_map.1 a
      rw [hL] at hv
      have : v ∈ L := by rcases List.mem_append.1 hv with hv | hv <;> exact List.mem_of_mem_filter hv
      exact ((C101_points_CHash md5 n v).1 (hp.mem_iff.1 this)).1
    refine ⟨?_, ?_, hmem⟩
    · rw [h1', List.length_take]
      have : (firsts (fun s => down.getD s false) (order.map Point.server)).length = ((List.range n).filter fun s => !down.getD s false).length := by
        apply List.Perm.length_eq
        refine (List.perm_ext_iff_of_nodup (nodup_firsts _ _) (List.nodup_range.filter _)).2 fun s => ?_
        rw [mem_firsts, List.mem_filter, List.mem_range]
        have hmem : s ∈ order.map Point.server ↔ s < n := by
          rw [hL]
          simp only [List.mem_map, List.mem_append, List.mem_filter, decide_eq_true_eq]
          constructor
          · rintro ⟨v, hv, rfl⟩
            have : v ∈ L := by rcases hv with hv | hv <;> exact hv.1
            exact ((C101_points_CHash md5 n v).1 (hp.mem_iff.1 this)).1
          · intro hs
            have hv : (⟨word (md5 (label s 0)) 0, s⟩ : Point) ∈ L := hp.mem_iff.2 ((C101_points_CHash md5 n _).2 ⟨hs, 0, by decide, 0, rfl⟩)
            refine ⟨⟨word (md5 (label s 0)) 0, s⟩, ?_, rfl⟩
            by_cases hle : hash md5 key ≤ word (md5 (label s 0)) 0
            · exact Or.inl ⟨hv, hle⟩
            · exact Or.inr ⟨hv, by simp only; omega⟩
        rw [hmem]
        simp
      omega
    · rw [h1']
      exact (nodup_firsts _ _).sublist (List.take_sublist _ _)
  · cases h1

/-- ch_ring_get_servers: the first `m` different servers met clockwise from the key; `m` may be up to the number of servers. -/
theorem C101_servers_CHash (md5 : Md5) (qs : Qsort) (n : Nat) (hn : 0 < n) (r : Ring) (h : create md5 qs (digests (.inl n)) = .ok r) (key : List Nat) (m : Nat) :
    ∃ order, Clockwise (points md5 (digests (.inl n))) (hash md5 key) order ∧
      servers md5 r key m = (if m ≤ n then .ok ((firsts (fun _ => false) (order.map Point.server)).take m) else .error .abort) := by
  obtain ⟨order, h1, h2⟩ := walk hn h key m (List.replicate n false) (by simp)
  refine ⟨order, h1, ?_⟩
  have hz : ∀ s, (List.replicate n false).getD s false = false := by
    intro s
    simp only [List.getD, List.getElem?_replicate]
    split <;> rfl
  simp only [hz, Bool.not_false, List.filter_true, List.length_range] at h2
  rw [← h2]
  obtain ⟨r', h3, _, h4⟩ := create_full (md5 := md5) (qs := qs) (full_digests n)
  rw [h] at h3
  cases h3
  simp only [servers, availableServers, h4]
  simp [digests]

/-- C101 fails for object ids: all ids that are multiples of 256 go to one and the same server, and the highest byte of an id does not count. -/
theorem C101_ids_fails_CHash (md5 : Md5) (r : Ring) : (∀ a b, serverOfId md5 r (256 * a) = serverOfId md5 r (256 * b)) ∧ ∀ a b, serverOfId md5 r (a + 256 ^ 7 * b) = serverOfId md5 r a := by
  constructor
  · intro a b
    have : ∀ a, idKey (256 * a) = [] := by
      intro a
      simp [idKey, List.range_succ_eq_map]
    simp only [serverOfId, this]
  · intro a b
    have : idKey (a + 256 ^ 7 * b) = idKey a := by
      unfold idKey
      congr 1
      apply List.map_congr_left
      intro i hi
      have hi' := List.mem_range.1 hi
      have e : 256 ^ 7 * b = 256 ^ i * (256 * (256 ^ (6 - i) * b)) := by
        rw [← Nat.mul_assoc, ← Nat.mul_assoc, ← Nat.pow_succ, ← Nat.pow_add]
        congr 2
        omega
      rw [e, Nat.add_mul_div_left _ _ (Nat.pow_pos (by decide)), Nat.add_mul_mod_self_left]
    simp only [serverOfId, this]

/-- a sorting function -/
def isort : Qsort where
  f := List.insertionSort fun v w => v.point ≤ w.point
  perm := fun l => List.perm_insertionSort _ l
  sorted := fun l => by
    have : Std.Total fun v w : Point => v.point ≤ w.point := ⟨fun a b => Nat.le_total _ _⟩
    have : IsTrans Point fun v w : Point => v.point ≤ w.point := ⟨fun a b c => Nat.le_trans⟩
    exact List.pairwise_insertionSort _ l

/-- a hash function for examples: the first character in the lowest byte, others spread over the rest -/
def toyMd5 : Md5 := fun s j =>
  let a := s.headD 0
  let b := s.getLastD 0
  Fin.ofNat 256 (if 250 ≤ a then 255 else if j.val % 4 = 0 then a else if j.val % 4 = 1 then b else if j.val % 4 = 2 then 7 * s.sum + j.val else 37 * a + 91 * b + 53 * s.length + 17 * j.val)

theorem toy_low : ∀ v ∈ points toyMd5 (digests (.inl 3)), v.point % 256 = v.server + 48 := by decide +kernel

/-- three servers without collision -/
theorem toy_noCollision : NoCollision (points toyMd5 (digests (.inl 3))) := fun v hv w hw h => by
  have h1 := toy_low v hv
  have h2 := toy_low w hw
  omega

/-- C101 fails with different weights: with weights 1 and 2 the ring claims 320 points but only 316 have been written; a key beyond the last of them makes the search read uninitialised memory. -/
theorem C101_weights_fails_CHash : (∀ md5 qs, ∃ r, create md5 qs (digests (.inr [1, 2])) = .ok r ∧ r.nPoint = 320 ∧ ∀ i, 316 ≤ i → i < 320 → r.vnode i = .error .uninit) ∧
    ∃ md5 qs r key, create md5 qs (digests (.inr [1, 2])) = .ok r ∧ server md5 r key = .error .uninit := by
  constructor
  · intro md5 qs
    have hl := points_length md5 (digests (.inr [1, 2]))
    have hd : digests (.inr [1, 2]) = [26, 53] := by decide
    have hl' : (qs.f (points md5 (digests (.inr [1, 2])))).length = 316 := by rw [(qs.perm _).length_eq, hl, hd]; rfl
    have hl2 : (points md5 (digests (.inr [1, 2]))).length = 316 := by rw [hl, hd]; rfl
    refine ⟨_, by unfold create; rw [if_pos (by rw [hl2, hd]; decide)], rfl, fun i h1 h2 => ?_⟩
    unfold Ring.vnode
    rw [List.getElem?_append_right (by simpa [hl'] using h1)]
    rw [List.length_map, hl', hl2, hd]
    have : (2 : Nat) * perServer - 316 = 4 := rfl
    simp only [List.length_cons, List.length_nil]
    rw [List.getElem?_replicate, if_pos (by show i - 316 < 2 * 160 - 316; omega)]
  · have h : ∃ r, create toyMd5 isort (digests (.inr [1, 2])) = .ok r := by
      unfold create
      rw [if_pos (by decide +kernel)]
      exact ⟨_, rfl⟩
    obtain ⟨r, hr⟩ := h
    refine ⟨toyMd5, isort, r, [255, 255], hr, ?_⟩
    have : (create toyMd5 isort (digests (.inr [1, 2])) >>= fun r => server toyMd5 r [255, 255]) = .error .uninit := by decide +kernel
    rw [hr] at this
    exact this

/-- three servers: two keys, the servers that follow one of them, those that are left if server 0 is down, and a key beyond the last point -/
example : (create toyMd5 isort (digests (.inl 3)) >>= fun r => do
    let a ← server toyMd5 r [10, 20]
    let b ← server toyMd5 r [100, 3]
    let c ← servers toyMd5 r [200] 3
    let d ← availableServers toyMd5 r [200] 2 [true, false, false]
    let e ← server toyMd5 r [255]
    .ok (a, b, c, d, e)) = .ok (1, 0, [1, 2, 0], [1, 2], 0) := by decide +kernel

/-- two servers and then three: object 7 goes to the new server, object 14 stays -/
example : (do
    let r ← create toyMd5 isort (digests (.inl 2))
    let r' ← create toyMd5 isort (digests (.inl 3))
    let a ← serverOfId toyMd5 r 7
    let b ← serverOfId toyMd5 r' 7
    let c ← serverOfId toyMd5 r 14
    let d ← serverOfId toyMd5 r' 14
    .ok (a, b, c, d)) = (.ok (0, 2, 1, 1) : Res (Nat × Nat × Nat × Nat)) := by decide +kernel

end Verif.Props
