import Verif.Proof.S3FIFOdv2
import Verif.Proof.S3FIFO
import Verif.Spec.S3Queue
/-!
# S3FIFO follows S3-FIFO
-/

namespace Verif.S3Queue
open Verif Verif.Spec Verif.Spec.S3
open Verif.Spec.LazyARC (ent)
open Verif.S3FIFOdv2 (GG QQ item ent_ids ent_append size_cons size_append size_nil toReq_id toReq_size)
open Verif.S3FIFO (State algo evictMain evictFifo)

theorem hit_eq (id : ObjId) (l : List Item) : S3.hit id l = AdaptiveS3.hit id l := rfl
theorem remember_eq (gs : Nat) (l : Contents) (x : ObjId × Nat) : S3.remember gs l x = AdaptiveS3.remember gs l x := rfl

theorem _root_.Verif.S3FIFOdv2.QQ.put {cs : Nat} {x : QState Nat} {l : List Item} (h : QQ cs x l) (r : Req) (hn : r.id ∉ (ent l).ids) :
    ∃ x', QState.insert 0 x r = .ok x' ∧ QQ cs x' (l ++ [⟨r.id, r.size % u32, 0⟩]) ∧
      (∀ m : Int, QQ cs (x'.modify r.id (fun o => { o with miscFreq := m })) (l ++ [⟨r.id, r.size % u32, 0⟩])) ∧
      ∀ (k : Nat) (m : Int), QQ cs (x'.modify r.id (fun o => { o with mt := k, miscFreq := m })) (l ++ [⟨r.id, r.size % u32, k⟩]) := by
  have hn' : r.id ∉ x.objs.map (·.id) := fun hh => hn ((h.ids r.id).1 hh)
  obtain ⟨x', h1, h2⟩ := h.rep.insert 0 r hn' (sizeOk_zero r)
  refine ⟨x', h1, QQ.of h2 ?_, fun m => QQ.of (h2.modify r.id _ (fun _ => rfl) (fun _ => rfl)) ?_,
    fun k m => QQ.of (h2.modify r.id _ (fun _ => rfl) (fun _ => rfl)) ?_⟩
  · rw [← h.list]; simp [item, Obj.ofReq]
  all_goals
    rw [← h.list]
    simp only [modL, List.map_cons, Obj.ofReq, List.reverse_cons, if_true, item, List.map_map]
    congr 2
    apply List.map_congr_left
    intro o ho
    have : o.id ≠ r.id := fun e => hn' (List.mem_map.2 ⟨o, ho, e⟩)
    simp [Function.comp, this, item]

theorem _root_.Verif.S3FIFOdv2.QQ.drop {cs : Nat} {x : QState Nat} {l : List Item} (h : QQ cs x l) (id : ObjId) :
    ∃ x', QState.remove x id = .ok (decide (id ∈ (ent l).ids), x') ∧ QQ cs x' (l.filter (fun y => y.id ≠ id)) := by
  by_cases hm : id ∈ (ent l).ids
  · obtain ⟨x', h1, h2⟩ := h.rep.remove_hit ((h.ids id).2 hm)
    refine ⟨x', by rw [decide_eq_true hm]; exact h1, QQ.of h2 ?_⟩
    rw [← h.list, List.filter_reverse, List.filter_map]
    rfl
  · refine ⟨x, by rw [decide_eq_false hm]; exact h.rep.remove_miss (fun hh => hm ((h.ids id).1 hh)), ?_⟩
    have : l.filter (fun y => y.id ≠ id) = l := by
      rw [List.filter_eq_self]
      intro y hy
      have : y.id ≠ id := fun e => hm (by rw [ent_ids, ← e]; exact List.mem_map_of_mem hy)
      simpa using this
    rw [this]; exact h

/-! ### the state -/

structure Rep (K : Conf) (s : State) (t : St) : Prop where
  csz : s.cacheSize = K.cs
  small : QQ K.fs s.fifo t.small
  main : QQ (K.cs - K.fs) s.main t.main
  ghost : GG K.gs s.ghost t.ghost
  thr : s.threshold = K.move
  known : s.hitOnGhost = t.known
  nodup : ((t.small ++ t.main).map (·.id)).Nodup

theorem Rep.init (K : Conf) : Rep K (S3FIFO.init K.cs K.fs K.gs K.move) {} :=
  ⟨rfl, QQ.init _, QQ.init _, GG.init _, rfl, rfl, List.nodup_nil⟩

section
variable {K : Conf} {s : State} {t : St}

theorem evictMain_spec : ∀ (n : Nat) (s : State) (t : St), Rep K s t → 0 < LazyARC.size t.main → (t.main.map Item.cnt).sum < n →
    ∃ s', evictMain n s = .ok s' ∧ Rep K s' { t with main := rotate t.main } ∧ (rotate t.main).length + 1 = t.main.length := by
  intro n
  induction n with
  | zero => intro s t h hp hs; omega
  | succ n ih =>
    intro s t h hp hs
    cases hl : t.main with
    | nil => rw [hl] at hp; simp at hp
    | cons x l =>
      have hm := h.main
      rw [hl] at hm
      obtain ⟨o, m, h1, h2, h3, h4⟩ := hm.head
      have hocc : s.main.base.occ > 0 := by rw [h.main.occ]; omega
      have hmt : o.mt = x.cnt := by rw [← h2]; rfl
      have hid : o.id = x.id := by rw [← h2]; rfl
      have hsz : o.size = x.size := by rw [← h2]; rfl
      have hnd := h.nodup
      rw [hl] at hnd
      rw [rotate]
      simp only [evictMain, hocc, if_true, h1, Res.bind_ok, hmt]
      by_cases hk : x.cnt ≥ 1
      · rw [if_pos hk, if_neg (show ¬ x.cnt = 0 by omega)]
        have hnew : x.id ∉ (ent l).ids := by
          rw [ent_ids]
          rw [List.map_append, List.nodup_append] at hnd
          exact (List.nodup_cons.1 hnd.2.1).1
        have hxs : x.size < u32 := hm.small x (by simp)
        obtain ⟨m', k1, _, _, k3⟩ := h4.put o.toReq (by rw [toReq_id, hid]; exact hnew)
        have k3' := k3 (min x.cnt 3 - 1) (x.cnt : Int)
        rw [toReq_id, toReq_size, hid, hsz, Nat.mod_eq_of_lt hxs] at k3'
        rw [hid] at h3
        simp only [hid, h3, Res.bind_ok, k1]
        have hp' : (t.small ++ (l ++ [(⟨x.id, x.size, min x.cnt 3 - 1⟩ : Item)])).map (·.id) |>.Perm ((t.small ++ x :: l).map (·.id)) := by
          simp only [List.map_append, List.map_cons, List.map_nil]
          exact List.Perm.append_left _ (List.perm_append_singleton _ _)
        have hr : Rep K { s with main := m'.modify x.id (fun y => { y with mt := min x.cnt 3 - 1, miscFreq := (x.cnt : Int) }) }
            { t with main := l ++ [⟨x.id, x.size, min x.cnt 3 - 1⟩] } :=
          ⟨h.csz, h.small, k3', h.ghost, h.thr, h.known, hp'.nodup_iff.2 hnd⟩
        obtain ⟨s', j1, j2, j3⟩ := ih _ _ hr (by
            show 0 < LazyARC.size (l ++ [_])
            rw [hl, size_cons] at hp
            rw [size_append, size_cons, size_nil]
            show 0 < LazyARC.size l + (x.size + 0)
            omega) (by
            rw [hl] at hs
            simp only [List.map_append, List.map_cons, List.map_nil, List.sum_append, List.sum_cons, List.sum_nil] at hs ⊢
            omega)
        refine ⟨s', j1, j2, ?_⟩
        simp only [List.length_append, List.length_cons, List.length_nil] at j3 ⊢
        exact j3
      · rw [if_neg hk, if_pos (show x.cnt = 0 by omega)]
        simp only [h3, Res.bind_ok, if_true]
        have hsub : (t.small ++ l).Sublist (t.small ++ x :: l) := List.Sublist.append_left (List.sublist_cons_self x l) _
        exact ⟨_, rfl, ⟨h.csz, h.small, h4, h.ghost, h.thr, h.known, (hsub.map _).nodup hnd⟩, rfl⟩

theorem sift_small (K : Conf) : ∀ (l : List Item) (l' : List Item) (u : St), sift K { u with small := l' } l = sift K u l := by
  intro l
  induction l with
  | nil => intro l' u; rfl
  | cons y l ihl =>
    intro l' u
    simp only [sift]
    split
    · rfl
    · split
      · rfl
      · exact ihl l' { u with main := u.main ++ [⟨y.id, y.size, 0⟩] }

theorem evictFifo_spec : ∀ (n : Nat) (s : State) (t : St), Rep K s t → t.small.length ≤ n →
    ∃ s', evictFifo n s = .ok s' ∧ Rep K s' (sift K t t.small) ∧
      2 * (sift K t t.small).small.length + (sift K t t.small).main.length + (if 0 < LazyARC.size t.small then 1 else 0) ≤ 2 * t.small.length + t.main.length := by
  intro n
  induction n with
  | zero =>
    intro s t h hlen
    have hl : t.small = [] := List.length_eq_zero_iff.1 (Nat.le_zero.1 hlen)
    have hocc : ¬ s.fifo.base.occ > 0 := by rw [h.small.occ, hl]; simp
    have e : sift K t [] = t := by rw [sift, ← hl]
    refine ⟨s, by simp only [evictFifo, hocc, if_false], ?_, ?_⟩
    · rw [hl, e]; exact h
    · rw [hl, e, hl]; simp
  | succ n ih =>
    intro s t h hlen
    cases hl : t.small with
    | nil =>
      have hocc : ¬ s.fifo.base.occ > 0 := by rw [h.small.occ, hl]; simp
      have e : sift K t [] = t := by rw [sift, ← hl]
      refine ⟨s, by simp only [evictFifo, hocc, if_false], ?_, ?_⟩
      · rw [e]; exact h
      · rw [e, hl]; simp
    | cons x l =>
      rw [sift]
      by_cases hz : LazyARC.size (x :: l) = 0
      · have hocc : ¬ s.fifo.base.occ > 0 := by rw [h.small.occ, hl]; omega
        rw [if_pos hz, ← hl]
        refine ⟨s, by simp only [evictFifo, hocc, if_false], h, ?_⟩
        rw [hl, if_neg (by omega)]
        simp
      · have hocc : s.fifo.base.occ > 0 := by rw [h.small.occ, hl]; omega
        have hm := h.small
        rw [hl] at hm
        obtain ⟨o, f, h1, h2, h3, h4⟩ := hm.head
        have hmt : o.mt = x.cnt := by rw [← h2]; rfl
        have hid : o.id = x.id := by rw [← h2]; rfl
        have hsz : o.size = x.size := by rw [← h2]; rfl
        have hnd := h.nodup
        rw [hl] at hnd
        have hra : S3FIFO.removeAsserted s.fifo o.id = .ok f := by simp [S3FIFO.removeAsserted, h3]
        rw [if_neg hz, if_pos (show 0 < LazyARC.size (x :: l) by omega)]
        simp only [evictFifo, hocc, if_true, h1, Res.bind_ok, hmt, hra]
        by_cases hk : x.cnt ≥ s.threshold
        · have hk' : ¬ x.cnt < K.move := by have := h.thr; omega
          rw [if_pos hk, if_neg hk']
          have hnew : x.id ∉ (ent t.main).ids := by
            rw [ent_ids]
            rw [List.map_append, List.nodup_append] at hnd
            intro hh
            exact hnd.2.2 x.id (by simp) x.id hh rfl
          have hxs : x.size < u32 := hm.small x (by simp)
          obtain ⟨m', k1, _, k3, _⟩ := h.main.put o.toReq (by rw [toReq_id, hid]; exact hnew)
          have k3' := k3 o.miscFreq
          rw [toReq_id, toReq_size, hid, hsz, Nat.mod_eq_of_lt hxs] at k3'
          simp only [k1, Res.bind_ok, hid]
          have hp' : ((l ++ (t.main ++ [(⟨x.id, x.size, 0⟩ : Item)])).map (·.id)).Perm ((x :: l ++ t.main).map (·.id)) := by
            rw [← List.append_assoc, List.map_append, List.cons_append, List.map_cons]
            exact List.perm_append_singleton _ _
          have hr : Rep K { s with main := m'.modify x.id (fun y => { y with miscFreq := o.miscFreq }), fifo := f }
              { t with small := l, main := t.main ++ [⟨x.id, x.size, 0⟩] } :=
            ⟨h.csz, h4, k3', h.ghost, h.thr, h.known, hp'.nodup_iff.2 hnd⟩
          obtain ⟨s', j1, j2, j3⟩ := ih _ _ hr (by rw [hl] at hlen; simpa using hlen)
          have es' := sift_small K l l { t with main := t.main ++ [⟨x.id, x.size, 0⟩] }
          simp only at es' j2 j3
          rw [es'] at j2 j3
          refine ⟨s', j1, j2, ?_⟩
          simp only [List.length_append, List.length_cons, List.length_nil] at j3 ⊢
          omega
        · have hk' : x.cnt < K.move := by have := h.thr; omega
          rw [if_neg hk, if_pos hk']
          obtain ⟨g, g1, g2⟩ := h.ghost.get o.toReq
          have hsub : (l ++ t.main).Sublist (x :: l ++ t.main) := List.sublist_cons_self x _
          simp only [g1, Res.bind_ok]
          rw [toReq_id, toReq_size, hid, hsz] at g2
          refine ⟨_, rfl, ⟨h.csz, h4, h.main, g2, h.thr, h.known, (hsub.map _).nodup hnd⟩, ?_⟩
          simp only [List.length_cons]; omega

/-- ids of cached objects -/
def ids (t : St) : List ObjId := (t.small ++ t.main).map (·.id)

theorem mem_ids (t : St) (i : ObjId) : i ∈ ids t ↔ i ∈ (ent t.small).ids ∨ i ∈ (ent t.main).ids := by
  rw [ids, List.map_append, List.mem_append, ent_ids, ent_ids]

theorem contents_ids (t : St) : (contents t).ids = ids t := by
  rw [contents, ← ent_append, ent_ids, ids]

theorem contents_bytes (t : St) : bytes 0 (contents t) = LazyARC.size t.small + LazyARC.size t.main := by
  rw [contents, ← ent_append, ← size_append]; rfl

theorem rotate_ids (l : List Item) : ∀ i ∈ (rotate l).map (·.id), i ∈ l.map (·.id) := by
  induction l using rotate.induct with
  | case1 => rw [rotate]; simp
  | case2 x l h => rw [rotate, if_pos h]; intro i hi; simp only [List.map_cons, List.mem_cons]; exact Or.inr hi
  | case3 x l h ih =>
    rw [rotate, if_neg h]
    intro i hi
    have := ih i hi
    simp only [List.map_append, List.map_cons, List.map_nil, List.mem_append, List.mem_cons, List.not_mem_nil, or_false] at this ⊢
    exact this.symm

theorem sift_ids (l : List Item) : ∀ t : St, ∀ i ∈ ids (sift K t l), i ∈ l.map (·.id) ∨ i ∈ t.main.map (·.id) := by
  induction l with
  | nil => intro t i hi; simp only [sift, ids, List.nil_append] at hi; exact Or.inr hi
  | cons x l ih =>
    intro t
    simp only [sift]
    split
    · intro i hi
      simp only [ids, List.map_append, List.mem_append] at hi; exact hi
    · split
      · intro i hi
        simp only [ids, List.map_append, List.mem_append, List.map_cons, List.mem_cons] at hi ⊢
        rcases hi with hi | hi
        · exact Or.inl (Or.inr hi)
        · exact Or.inr hi
      · intro i hi
        have := ih { t with main := t.main ++ [⟨x.id, x.size, 0⟩] } i hi
        simp only [List.map_append, List.mem_append, List.map_cons, List.map_nil, List.mem_cons, List.not_mem_nil, or_false] at this ⊢
        rcases this with h | h | h
        · exact Or.inl (Or.inr h)
        · exact Or.inr h
        · exact Or.inl (Or.inl h)

theorem evict_ids (t : St) : ∀ i ∈ ids (S3.evict K t), i ∈ ids t := by
  unfold S3.evict
  split
  · intro i hi
    simp only [ids, List.map_append, List.mem_append] at hi ⊢
    rcases hi with hi | hi
    · exact Or.inl hi
    · split at hi
      · exact Or.inr hi
      · exact Or.inr (rotate_ids _ i hi)
  · intro i hi
    have := sift_ids (K := K) t.small t i hi
    simp only [ids, List.map_append, List.mem_append]
    exact this

theorem Rep.evict_spec (h : Rep K s t) :
    ∃ s', S3FIFO.evict s = .ok s' ∧ Rep K s' (S3.evict K t) ∧
      (0 < LazyARC.size t.small + LazyARC.size t.main →
        2 * (S3.evict K t).small.length + (S3.evict K t).main.length < 2 * t.small.length + t.main.length) := by
  have h1 := h.main.occ
  have h2 := h.small.occ
  have h3 := h.main.csz
  unfold S3FIFO.evict S3.evict
  by_cases hc : LazyARC.size t.main > K.cs - K.fs ∨ LazyARC.size t.small = 0
  · have hc' : s.main.base.occ > (s.main.base.cacheSize : Int) ∨ s.fifo.base.occ = 0 := by omega
    rw [if_pos hc', if_pos hc, h.main.freqSum]
    by_cases hz : LazyARC.size t.main = 0
    · have hocc : ¬ s.main.base.occ > 0 := by omega
      refine ⟨s, by simp only [evictMain, hocc, if_false], ?_, fun hp => by omega⟩
      rw [if_pos hz]; exact h
    · rw [if_neg hz]
      obtain ⟨s', j1, j2, j3⟩ := evictMain_spec _ s t h (by omega) (Nat.lt_succ_self _)
      refine ⟨s', j1, j2, fun _ => ?_⟩
      simp only
      omega
  · have hc' : ¬ (s.main.base.occ > (s.main.base.cacheSize : Int) ∨ s.fifo.base.occ = 0) := by omega
    rw [if_neg hc', if_neg hc, h.small.len]
    obtain ⟨s', j1, j2, j3⟩ := evictFifo_spec _ s t h (Nat.le_refl _)
    rw [if_pos (by omega)] at j3
    exact ⟨s', j1, j2, fun _ => by omega⟩

theorem Rep.mustEvict (h : Rep K s t) (r : Req) : algo.mustEvict s r = decide (¬ LazyARC.size t.small + LazyARC.size t.main + r.size ≤ K.cs) := by
  unfold Algo.mustEvict
  rw [decide_eq_decide]
  show s.fifo.base.occ + s.main.base.occ + (r.size : Int) + ((0 : Nat) : Int) > (s.cacheSize : Int) ↔ _
  rw [h.small.occ, h.main.occ, h.csz]
  omega

theorem room_ids (need : Nat) : ∀ n (t : St), ∀ i ∈ ids (room K need n t), i ∈ ids t := by
  intro n
  induction n with
  | zero => intro t i h; exact h
  | succ n ih =>
    intro t
    simp only [room]
    split
    · exact fun _ h => h
    · exact fun i hi => evict_ids (K := K) t i (ih (S3.evict K t) i hi)

theorem room_spec (r : Req) (hr : r.size ≤ K.cs) : ∀ (n : Nat) (s : State) (t : St), Rep K s t → 2 * t.small.length + t.main.length ≤ n →
    ∃ s', algo.evictLoop r n s = .ok s' ∧ Rep K s' (room K r.size n t) := by
  intro n
  induction n with
  | zero =>
    intro s t h hm
    have e1 : t.small = [] := List.length_eq_zero_iff.1 (by omega)
    have e2 : t.main = [] := List.length_eq_zero_iff.1 (by omega)
    have hle : LazyARC.size t.small + LazyARC.size t.main + r.size ≤ K.cs := by rw [e1, e2]; simpa using hr
    refine ⟨s, ?_, h⟩
    simp only [Algo.evictLoop, h.mustEvict r, decide_eq_false (not_not.2 hle), Bool.false_eq_true, if_false]
  | succ n ih =>
    intro s t h hm
    by_cases hle : LazyARC.size t.small + LazyARC.size t.main + r.size ≤ K.cs
    · simp only [room, if_pos hle]
      refine ⟨s, ?_, h⟩
      simp only [Algo.evictLoop, h.mustEvict r, decide_eq_false (not_not.2 hle), Bool.false_eq_true, if_false]
    · simp only [room, if_neg hle]
      obtain ⟨s1, j1, j2, j3⟩ := h.evict_spec
      have j3 := j3 (by omega)
      obtain ⟨s', k1, k2⟩ := ih s1 _ j2 (by omega)
      refine ⟨s', ?_, k2⟩
      have j1' : algo.evict s r = .ok s1 := j1
      simp only [Algo.evictLoop, h.mustEvict r, decide_eq_true hle, if_true, j1', Res.bind_ok, k1]

/-! ### the calls -/

theorem Rep.bump (h : Rep K s t) : Rep K (algo.bump s) t := ⟨h.csz, h.small, h.main, h.ghost, h.thr, h.known, h.nodup⟩

theorem Rep.look_spec (h : Rep K s t) (r : Req) : ∃ s', algo.find s r true = .ok ((look t r.id).1, s') ∧ Rep K s' (look t r.id).2 := by
  show ∃ s', S3FIFO.find s r true = _ ∧ _
  simp only [S3FIFO.find, S3FIFO.findUpdate, if_true]
  unfold look
  by_cases hs : r.id ∈ (ent t.small).ids
  · simp only [hs, if_true]
    obtain ⟨o, f, h1, h2, _⟩ := h.small.hit hs
    rw [h1]
    refine ⟨_, rfl, ⟨h.csz, h2, h.main, h.ghost, h.thr, rfl, ?_⟩⟩
    have := h.nodup
    rw [List.map_append] at this ⊢
    show (List.map (fun x => x.id) (AdaptiveS3.hit r.id t.small) ++ _).Nodup
    rw [S3FIFOdv2.hit_ids]; exact this
  · simp only [hs, if_false]
    obtain ⟨g, g1, g2⟩ := h.ghost.remove r.id
    rw [h.small.miss hs]
    simp only [g1, Res.bind_ok]
    by_cases hm : r.id ∈ (ent t.main).ids
    · simp only [hm, if_true]
      obtain ⟨o, f, h1, h2, _⟩ := h.main.hit hm
      rw [h1]
      refine ⟨_, rfl, ⟨h.csz, h.small, h2, g2, h.thr, rfl, ?_⟩⟩
      have := h.nodup
      rw [List.map_append] at this ⊢
      show (_ ++ List.map (fun x => x.id) (AdaptiveS3.hit r.id t.main)).Nodup
      rw [S3FIFOdv2.hit_ids]; exact this
    · simp only [hm, if_false]
      rw [h.main.miss hm]
      exact ⟨_, rfl, ⟨h.csz, h.small, h.main, g2, h.thr, rfl, h.nodup⟩⟩

theorem Rep.store_spec (h : Rep K s t) (r : Req) (hn : r.id ∉ ids t) : ∃ s', algo.insert s r = .ok s' ∧ Rep K s' (store K t r) := by
  show ∃ s', S3FIFO.insert s r = _ ∧ _
  have hnm : r.id ∉ (ent t.main).ids := fun hh => hn ((mem_ids t _).2 (Or.inr hh))
  have hns : r.id ∉ (ent t.small).ids := fun hh => hn ((mem_ids t _).2 (Or.inl hh))
  unfold S3FIFO.insert store
  rw [h.known, h.small.csz]
  by_cases hk : t.known = true
  · rw [if_pos hk, if_pos hk]
    obtain ⟨m, k1, k2, _⟩ := h.main.put r hnm
    refine ⟨{ s with hitOnGhost := false, main := m }, by rw [k1, Res.bind_ok], ⟨h.csz, h.small, k2, h.ghost, h.thr, rfl, ?_⟩⟩
    show ((t.small ++ (t.main ++ [(⟨r.id, r.size % u32, 0⟩ : Item)])).map (fun x => x.id)).Nodup
    rw [← List.append_assoc, List.map_append, List.nodup_append]
    refine ⟨h.nodup, by simp, ?_⟩
    intro a ha b hb
    simp only [List.map_cons, List.map_nil, List.mem_singleton] at hb
    subst hb
    rintro rfl
    exact hn ha
  · rw [if_neg hk, if_neg hk]
    by_cases hf : r.size < K.fs
    · rw [if_pos hf, if_neg (show ¬ r.size ≥ K.fs by omega)]
      obtain ⟨m, k1, k2, _⟩ := h.small.put r hns
      refine ⟨{ s with fifo := m }, by rw [k1, Res.bind_ok, ← h.known], ⟨h.csz, k2, h.main, h.ghost, h.thr, h.known, ?_⟩⟩
      have hp : (t.small ++ [(⟨r.id, r.size % u32, 0⟩ : Item)] ++ t.main).Perm (⟨r.id, r.size % u32, 0⟩ :: (t.small ++ t.main)) := by
        rw [List.append_assoc]; exact List.perm_middle
      refine (hp.map _).nodup_iff.2 ?_
      rw [List.map_cons, List.nodup_cons]
      exact ⟨hn, h.nodup⟩
    · rw [if_neg hf, if_pos (show r.size ≥ K.fs by omega)]
      exact ⟨s, rfl, h⟩

theorem look_miss {r : Req} (h : (look t r.id).1 = false) : r.id ∉ ids (look t r.id).2 := by
  rw [mem_ids]
  unfold look at h ⊢
  by_cases hs : r.id ∈ (ent t.small).ids
  · simp only [hs, if_true] at h; cases h
  · simp only [hs, if_false] at h ⊢
    by_cases hm : r.id ∈ (ent t.main).ids
    · simp only [hm, if_true] at h; cases h
    · simp only [hm, if_false]
      rintro (hh | hh)
      · exact hs hh
      · exact hh.elim

theorem Rep.get_spec (hK : K.fs ≤ K.cs) (h : Rep K s t) (r : Req) : ∃ s', algo.get s r = .ok ((S3.get K t r).1, s') ∧ Rep K s' (S3.get K t r).2 := by
  obtain ⟨s1, h1, h2⟩ := h.bump.look_spec r
  have hl := look_miss (t := t) (r := r)
  unfold S3.get
  dsimp only
  generalize look t r.id = u at h1 h2 hl ⊢
  by_cases hb : u.1 = true
  · rw [hb] at h1
    simp only [hb, if_true]
    exact ⟨s1, get_hit h1, h2⟩
  · rw [Bool.not_eq_true] at hb
    have hl := hl hb
    rw [hb] at h1
    simp only [hb, Bool.false_eq_true, if_false]
    have hci : algo.canInsert s1 r = (decide (r.size ≤ K.fs), s1) := by
      show (decide (r.size ≤ s1.fifo.base.cacheSize), s1) = _
      rw [h2.small.csz]
    by_cases hfs : K.fs < r.size
    · simp only [hfs, if_true]
      rw [decide_eq_false (by omega)] at hci
      exact ⟨s1, get_reject h1 hci, h2⟩
    · simp only [hfs, if_false]
      rw [decide_eq_true (by omega)] at hci
      obtain ⟨s2, k1, k2⟩ := room_spec r (show r.size ≤ K.cs by omega) (2 * u.2.small.length + u.2.main.length) s1 _ h2 (Nat.le_refl _)
      have k1' : algo.evictLoop r (algo.fuel s1) s1 = .ok s2 := by
        show algo.evictLoop r (2 * s1.fifo.base.tbl.length + s1.main.base.tbl.length) s1 = _
        rw [h2.small.len, h2.main.len]; exact k1
      obtain ⟨s3, j1, j2⟩ := k2.store_spec r (fun hh => hl (room_ids _ _ _ _ hh))
      exact ⟨s3, get_accept h1 hci k1' j1, j2⟩

theorem Rep.peek (h : Rep K s t) (r : Req) : algo.find s r false = .ok (decide (r.id ∈ (contents t).ids), s) := by
  show S3FIFO.find s r false = _
  simp only [S3FIFO.find, Bool.false_eq_true, if_false, h.small.peek, h.main.peek]
  rw [contents_ids, ← Bool.decide_or]
  congr 2
  rw [decide_eq_decide, mem_ids]

theorem Rep.remove_spec (h : Rep K s t) (id : ObjId) : ∃ s', algo.remove s id = .ok ((S3.remove t id).1, s') ∧ Rep K s' (S3.remove t id).2 := by
  show ∃ s', S3FIFO.remove s id = _ ∧ _
  unfold S3FIFO.remove S3.remove
  by_cases hs : id ∈ (ent t.small).ids
  · obtain ⟨f, f1, f2⟩ := h.small.drop id
    rw [decide_eq_true hs] at f1
    simp only [f1, Res.bind_ok, if_true, hs]
    refine ⟨_, rfl, ⟨h.csz, f2, h.main, h.ghost, h.thr, h.known, ?_⟩⟩
    have hsub : (t.small.filter (fun x => x.id ≠ id) ++ t.main).Sublist (t.small ++ t.main) := List.Sublist.append_right List.filter_sublist _
    exact (hsub.map _).nodup h.nodup
  · have f1 : s.fifo.remove id = .ok (false, s.fifo) := h.small.rep.remove_miss (fun hh => hs ((h.small.ids id).1 hh))
    obtain ⟨g, g1, g2⟩ := h.ghost.remove id
    simp only [f1, Res.bind_ok, Bool.false_eq_true, if_false, hs, g1]
    by_cases hg : id ∈ t.ghost.ids
    · simp only [hg, decide_true, if_true]
      exact ⟨_, rfl, ⟨h.csz, h.small, h.main, g2, h.thr, h.known, h.nodup⟩⟩
    · simp only [hg, decide_false, if_false, Bool.false_eq_true]
      obtain ⟨m, m1, m2⟩ := h.main.drop id
      have hgf : t.ghost.filter (fun x => x.1 ≠ id) = t.ghost := by
        rw [List.filter_eq_self]
        intro y hy
        have : y.1 ≠ id := fun e => hg (e ▸ List.mem_map_of_mem hy)
        simpa using this
      rw [hgf] at g2
      simp only [m1, Res.bind_ok]
      refine ⟨_, rfl, ⟨h.csz, h.small, m2, g2, h.thr, h.known, ?_⟩⟩
      have hsub : (t.small ++ t.main.filter (fun x => x.id ≠ id)).Sublist (t.small ++ t.main) := List.Sublist.append_left List.filter_sublist _
      exact (hsub.map _).nodup h.nodup

theorem Rep.step_spec (hK : K.fs ≤ K.cs) (h : Rep K s t) (op : Op) : ∃ s', algo.step s op = .ok ((S3.step K t op).1, s') ∧ Rep K s' (S3.step K t op).2 := by
  cases op with
  | get r => exact h.get_spec hK r
  | find r u =>
    cases u with
    | true => exact h.look_spec r
    | false => exact ⟨s, h.peek r, h⟩
  | remove id => exact h.remove_spec id
  | evict r =>
    have hn : algo.nObj s = ((contents t).length : Nat) := by
      show s.fifo.base.nObj + s.main.base.nObj = _
      rw [h.small.nObj, h.main.nObj]
      simp [contents, ent]
    simp only [Algo.step, S3.step, hn]
    by_cases hc : contents t = []
    · simp only [hc, if_true, List.length_nil]
      exact ⟨s, rfl, h⟩
    · have : 0 < (contents t).length := List.length_pos_of_ne_nil hc
      rw [if_neg hc, if_pos (by omega)]
      obtain ⟨s', j1, j2, _⟩ := h.evict_spec
      have j1' : algo.evict s r = .ok s' := j1
      exact ⟨s', by rw [j1', Res.bind_ok], j2⟩
  | insert r =>
    simp only [Algo.step, S3.step, h.peek r, Res.bind_ok, h.mustEvict r, contents_bytes]
    by_cases hc : r.id ∉ (contents t).ids ∧ LazyARC.size t.small + LazyARC.size t.main + r.size ≤ K.cs
    · rw [if_pos hc, if_pos (by simpa using hc)]
      obtain ⟨s', j1, j2⟩ := h.store_spec r (by rw [← contents_ids]; exact hc.1)
      exact ⟨s', by rw [j1, Res.bind_ok], j2⟩
    · rw [if_neg hc, if_neg (by simpa using hc)]
      exact ⟨s, rfl, h⟩

theorem run_spec (hK : K.fs ≤ K.cs) : ∀ (ops : List Op) (s : State) (t : St), Rep K s t →
    ∃ s', algo.run s ops = .ok ((S3.run K t ops).1, s') ∧ Rep K s' (S3.run K t ops).2 := by
  intro ops
  induction ops with
  | nil => intro s t h; exact ⟨s, rfl, h⟩
  | cons op ops ih =>
    intro s t h
    obtain ⟨s1, h1, h2⟩ := h.step_spec hK op
    obtain ⟨s', k1, k2⟩ := ih s1 _ h2
    exact ⟨s', by simp only [Algo.run, h1, Res.bind_ok, k1]; rfl, k2⟩

end

/-- the state in the terms of the specification -/
def view (s : State) : St :=
  { small := (s.fifo.objs.map item).reverse, main := (s.main.objs.map item).reverse, ghost := S3FIFOdv2.ghostList s.ghost, known := s.hitOnGhost }

theorem Rep.view {K : Conf} {s : State} {t : St} (h : Rep K s t) : view s = t := by
  cases t
  simp only [S3Queue.view, h.small.list, h.main.list, h.ghost.list, h.known]

end Verif.S3Queue
