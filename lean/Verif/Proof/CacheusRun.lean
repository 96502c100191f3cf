import Verif.Proof.Cacheus
import Verif.Proof.SingleBase
/-!
# Runs of Cacheus
-/

namespace Verif.Cacheus
open Verif Spec
open Verif.Spec.Cacheus (St Weighing without note leave limitPast spill oldest rare)
variable {A : Arith} {cs : Nat}

/-- the numbers of the code as the reference machine uses them -/
def weigh (A : Arith) : Weighing A.W :=
  ⟨A.lruWins, A.lruGhost, A.lfuGhost, A.noGhost, A.moved, A.learn, A.flat, A.keep, A.redraw⟩

/-- what Cacheus has cached: the objects of the two lists -/
def cached (s : State A) : Contents := cont s.lru.R.objs ++ cont s.lru.SR.objs

/-- The state `s` is in is `t`; `g` says whether this is inside a `get`. -/
structure Sim (cs : Nat) (g : Bool) (s : State A) (t : St A.W) : Prop where
  rel : ∃ R SR H, Rel cs s.lru s.lfu R SR H t
  half : charge 0 t.keep ≤ cs / 2
  cap : charge 0 t.contents ≤ cs
  emp : t.order = [] → s.lfu.minFreq = none ∨ t.past = []
  csz : s.base.cacheSize = cs
  mdz : s.base.objMd = 0
  adm : s.base.adm = t.adm
  now : s.base.nReq = t.now
  gl : LL (cs / 2) s.lruG t.ghostLru
  gf : LL (cs / 2) s.lfuG t.ghostLfu
  w : s.w = t.w
  hits : s.numHit = t.hits
  dull : s.unlearn = t.dull
  draws : s.picks = t.draws
  vt : s.candVt = -1
  get : s.inGet = g

namespace Sim
variable {g : Bool} {s : State A} {t : St A.W}

theorem cached_eq (h : Sim cs g s t) : cached s = t.contents := by
  obtain ⟨R, SR, H, hr⟩ := h.rel
  unfold cached Spec.Cacheus.St.contents
  rw [hr.lr.r.objs, hr.lr.sr.objs, hr.keep, hr.trial]

theorem nodup (h : Sim cs g s t) : t.contents.ids.Nodup := by
  obtain ⟨R, SR, H, hr⟩ := h.rel
  unfold Spec.Cacheus.St.contents
  rw [hr.keep, hr.trial, ids_append, cont_ids, cont_ids]
  exact (List.nodup_append.1 hr.lr.nd).1

theorem occ (h : Sim cs g s t) : s.lru.occ = (charge 0 t.contents : Nat) := by
  obtain ⟨R, SR, H, hr⟩ := h.rel
  unfold SRLRU.occ Spec.Cacheus.St.contents
  rw [hr.lr.r.occ, hr.lr.sr.occ, hr.keep, hr.trial, charge_app]
  push_cast; rfl

theorem nObj (h : Sim cs g s t) : s.lru.nObj = (t.contents.length : Nat) := by
  obtain ⟨R, SR, H, hr⟩ := h.rel
  unfold SRLRU.nObj Spec.Cacheus.St.contents
  rw [hr.lr.r.nObj, hr.lr.sr.nObj, hr.keep, hr.trial, List.length_append, cont_length, cont_length]
  push_cast; rfl

theorem fuel (h : Sim cs g s t) : s.lru.R.q.length + s.lru.SR.q.length = t.contents.length := by
  obtain ⟨R, SR, H, hr⟩ := h.rel
  unfold Spec.Cacheus.St.contents
  rw [hr.lr.r.q, hr.lr.sr.q, hr.keep, hr.trial, List.length_append, cont_length, cont_length, List.length_map, List.length_map]

theorem init (A : Arith) (cs : Nat) (adm : Adm) (picks : List Nat) : Sim cs false (init A cs false adm picks) { w := A.init (picks.headD 0), draws := picks.tail, adm := adm } := by
  refine ⟨⟨[], [], [], ⟨⟨Rep.init _ _ _, Rep.init _ _ _, Rep.init _ _ _, rfl, by simp, by simp, by simp⟩, rfl, rfl, rfl, ?_, by simp⟩⟩, by simp [charge], by simp [Spec.Cacheus.St.contents, charge],
    fun _ => Or.inr rfl, rfl, rfl, rfl, rfl, LL.init _, LL.init _, rfl, rfl, rfl, rfl, rfl, rfl⟩
  refine ⟨List.nodup_nil, List.Perm.refl _, by simp [Cacheus.init, Base.init], List.Perm.refl _, ?_, by simp, by simp, by simp⟩
  intro k
  simp only [Cacheus.init]
  split <;> rfl

/-! ### the end of a get -/

theorem endGet (h : Sim cs g s t) : Sim cs g (endGet s) (Spec.Cacheus.adapt (weigh A) cs t) := by
  unfold Cacheus.endGet Spec.Cacheus.adapt
  rw [h.now, h.csz]
  by_cases hm : t.now % cs = 0
  · rw [if_pos hm, if_pos hm]
    unfold updateLr State.draw
    simp only [h.w, h.hits, h.csz, h.dull, h.draws]
    obtain ⟨R, SR, H, hr⟩ := h.rel
    by_cases c1 : A.moved t.w = true
    · rw [if_pos c1, if_pos (show (weigh A).moved t.w = true from c1)]
      exact ⟨⟨R, SR, H, hr.lr, hr.keep, hr.trial, hr.past, hr.lf, hr.hf⟩, h.half, h.cap, h.emp, h.csz, h.mdz, h.adm, h.now, h.gl, h.gf, rfl, rfl, rfl, rfl, h.vt, h.get⟩
    · rw [if_neg c1, if_neg (show ¬ (weigh A).moved t.w = true from c1)]
      by_cases c2 : A.flat t.w (t.hits / cs) = true
      · rw [if_pos c2, if_pos (show (weigh A).flat t.w (t.hits / cs) = true from c2)]
        exact ⟨⟨R, SR, H, hr.lr, hr.keep, hr.trial, hr.past, hr.lf, hr.hf⟩, h.half, h.cap, h.emp, h.csz, h.mdz, h.adm, h.now, h.gl, h.gf, rfl, rfl, rfl, rfl, h.vt, h.get⟩
      · rw [if_neg c2, if_neg (show ¬ (weigh A).flat t.w (t.hits / cs) = true from c2)]
        by_cases c3 : t.dull.getD 0 ≥ 10
        · rw [if_pos c3, if_pos c3]
          exact ⟨⟨R, SR, H, hr.lr, hr.keep, hr.trial, hr.past, hr.lf, hr.hf⟩, h.half, h.cap, h.emp, h.csz, h.mdz, h.adm, h.now, h.gl, h.gf, rfl, rfl, rfl, rfl, h.vt, h.get⟩
        · rw [if_neg c3, if_neg c3]
          exact ⟨⟨R, SR, H, hr.lr, hr.keep, hr.trial, hr.past, hr.lf, hr.hf⟩, h.half, h.cap, h.emp, h.csz, h.mdz, h.adm, h.now, h.gl, h.gf, rfl, rfl, rfl, rfl, h.vt, h.get⟩
  · rw [if_neg hm, if_neg hm]; exact h

theorem finish (h : Sim cs g s t) : Sim cs false (finish s) (if g then Spec.Cacheus.adapt (weigh A) cs t else t) := by
  unfold Cacheus.finish
  rw [h.get]
  cases g with
  | false => exact h
  | true =>
    simp only [if_true]
    have h' : Sim cs false { s with inGet := false } t := { h with get := rfl }
    exact h'.endGet

/-! ### find -/

theorem mem_ghost {x : QState Unit} {l : Contents} (h : LL (cs / 2) x l) (id : ObjId) : (x.base.lookup id).isSome = decide (id ∈ l.ids) := by
  rw [lookup_isSome_iff]
  have := h.mem id
  exact decide_eq_decide.2 this

theorem find0_hit (h : Sim cs g s t) {r : Req} (hm : r.id ∈ t.contents.ids) :
    ∃ s', find0 s r true = .ok (true, s') ∧ Sim cs g s' (Spec.Cacheus.hit cs t r.id) := by
  obtain ⟨R, SR, H, hr⟩ := h.rel
  obtain ⟨l', f', R', SR', g1, g2, g3, g4, g5⟩ := hr.find_hit ((hr.mem_contents r.id).1 hm)
  refine ⟨{ s with lru := l', lfu := f', numHit := s.numHit + 1 }, ?_, ?_⟩
  · unfold find0
    rw [g1, Res.bind_ok, g2, Res.bind_ok]
    rfl
  · have ho : (Spec.Cacheus.hit cs t r.id).order ≠ [] ∧ (Spec.Cacheus.hit cs t r.id).hits = t.hits + 1 ∧ (Spec.Cacheus.hit cs t r.id).adm = t.adm ∧ (Spec.Cacheus.hit cs t r.id).now = t.now ∧
        (Spec.Cacheus.hit cs t r.id).ghostLru = t.ghostLru ∧ (Spec.Cacheus.hit cs t r.id).ghostLfu = t.ghostLfu ∧ (Spec.Cacheus.hit cs t r.id).w = t.w ∧
        (Spec.Cacheus.hit cs t r.id).dull = t.dull ∧ (Spec.Cacheus.hit cs t r.id).draws = t.draws := by
      unfold Spec.Cacheus.hit
      simp only
      split <;> exact ⟨by simp, rfl, rfl, rfl, rfl, rfl, rfl, rfl, rfl⟩
    obtain ⟨o1, o2, o3, o4, o5, o6, o7, o8, o9⟩ := ho
    have hcap := h.cap
    have hhalf := h.half
    unfold Spec.Cacheus.St.contents at hcap
    refine ⟨⟨R', SR', H, g3⟩, ?_, ?_, fun e => absurd e o1, h.csz, h.mdz, by rw [o3]; exact h.adm, by rw [o4]; exact h.now, by rw [o5]; exact h.gl, by rw [o6]; exact h.gf, by rw [o7]; exact h.w, ?_,
      by rw [o8]; exact h.dull, by rw [o9]; exact h.draws, h.vt, h.get⟩
    · rw [g3.keep]; rw [hr.keep] at hhalf; exact g4 hhalf
    · unfold Spec.Cacheus.St.contents
      rw [g3.keep, g3.trial, charge_perm g5]
      rw [hr.keep, hr.trial] at hcap; exact hcap
    · rw [o2, ← h.hits]

theorem find0_miss (h : Sim cs g s t) {r : Req} (hm : r.id ∉ t.contents.ids) :
    ∃ s', find0 s r true = .ok (false, s') ∧ Sim cs g s' (Spec.Cacheus.regret (weigh A) t r.id) := by
  obtain ⟨R, SR, H, hr⟩ := h.rel
  obtain ⟨g1, g2⟩ := hr.find_miss (r := r) (fun hh => hm ((hr.mem_contents r.id).2 hh))
  obtain ⟨x1, k1, k2⟩ := h.gl.remove r.id
  obtain ⟨x2, k3, k4⟩ := h.gf.remove r.id
  refine ⟨{ updateWeight s r with lruG := x1, lfuG := x2 }, ?_, ?_⟩
  · unfold find0
    rw [g1, Res.bind_ok, g2, Res.bind_ok]
    simp only [Bool.true_eq_false, if_false, Bool.false_eq_true]
    unfold history
    rw [k1, Res.bind_ok, k3, Res.bind_ok]
    rfl
  · refine ⟨⟨R, SR, H, hr.lr, hr.keep, hr.trial, hr.past, hr.lf, hr.hf⟩, h.half, h.cap, h.emp, h.csz, h.mdz, h.adm, h.now, k2, k4, ?_, h.hits, h.dull, h.draws, h.vt, h.get⟩
    show (updateWeight s r).w = _
    unfold updateWeight Spec.Cacheus.regret
    simp only [mem_ghost h.gl, mem_ghost h.gf, decide_eq_true_eq, weigh, h.w]

theorem find0_false (h : Sim cs g s t) (r : Req) : find0 s r false = .ok (decide (r.id ∈ t.contents.ids), s) := by
  obtain ⟨R, SR, H, hr⟩ := h.rel
  unfold find0
  rw [hr.lr.find_false r, Res.bind_ok, FRep.find_false, Res.bind_ok]
  simp only [if_true]
  have := hr.mem_contents r.id
  rw [decide_eq_decide.2 this]

theorem look (hcs : 0 < cs) (h : Sim cs g s t) (r : Req) :
    ∃ s', find s r true = .ok (decide (r.id ∈ t.contents.ids), s') ∧
      (r.id ∈ t.contents.ids → Sim cs false s' (if g then Spec.Cacheus.adapt (weigh A) cs (Spec.Cacheus.hit cs t r.id) else Spec.Cacheus.hit cs t r.id)) ∧
      (r.id ∉ t.contents.ids → Sim cs g s' (Spec.Cacheus.regret (weigh A) t r.id)) := by
  have hz : ¬ (s.inGet = true ∧ s.base.cacheSize = 0) := by rw [h.csz]; omega
  unfold find
  rw [if_neg hz]
  by_cases hm : r.id ∈ t.contents.ids
  · obtain ⟨s', e, h'⟩ := h.find0_hit hm
    rw [e, Res.bind_ok, decide_eq_true hm]
    exact ⟨_, rfl, fun _ => h'.finish, fun hn => absurd hm hn⟩
  · obtain ⟨s', e, h'⟩ := h.find0_miss hm
    rw [e, Res.bind_ok, decide_eq_false hm]
    exact ⟨s', rfl, fun hh => absurd hh hm, fun _ => h'⟩

theorem find_false (hcs : 0 < cs) (h : Sim cs g s t) (r : Req) : find s r false = .ok (decide (r.id ∈ t.contents.ids), s) := by
  have hz : ¬ (s.inGet = true ∧ s.base.cacheSize = 0) := by rw [h.csz]; omega
  unfold find
  rw [if_neg hz, h.find0_false, Res.bind_ok]
  simp only [Bool.and_false, Bool.false_eq_true, if_false]

/-! ### eviction -/

theorem mem_of_contents {R SR H : List (Obj Meta)} (hr : Rel cs s.lru s.lfu R SR H t) {b : ObjId × Nat} (hb : b ∈ t.contents) : ∃ o, o ∈ R ++ SR ∧ (o.id, o.size) = b := by
  unfold Spec.Cacheus.St.contents at hb
  rw [hr.keep, hr.trial, ← cont_append] at hb
  exact List.mem_map.1 hb

/-- with draws taken, the rest is the same -/
theorem Rel_draws {l : SRLRU} {f : CRLFU} {R SR H : List (Obj Meta)} {d : List Nat} (hr : Rel cs l f R SR H t) : Rel cs l f R SR H { t with draws := d } :=
  ⟨hr.lr, hr.keep, hr.trial, hr.past, hr.lf, hr.hf⟩

theorem eq_of_ids {l : Contents} (h : l.ids.Nodup) {x y : ObjId × Nat} (hx : x ∈ l) (hy : y ∈ l) (e : x.1 = y.1) : x = y := by
  have := List.inj_on_of_nodup_map h hx hy e
  exact this

theorem evict (hcs : 0 < cs) (h : Sim cs g s t) (hne : t.contents ≠ []) :
    ∃ s', Cacheus.evict s = .ok s' ∧ Sim cs g s' (Spec.Cacheus.evict (weigh A) cs t) ∧ (Spec.Cacheus.evict (weigh A) cs t).contents.Sublist t.contents ∧
      (Spec.Cacheus.evict (weigh A) cs t).contents.length < t.contents.length := by
  obtain ⟨R, SR, H, hr⟩ := h.rel
  have hne' : ¬ (R = [] ∧ SR = []) := by
    rintro ⟨rfl, rfl⟩
    apply hne
    unfold Spec.Cacheus.St.contents
    rw [hr.keep, hr.trial]; rfl
  have hord : t.order ≠ [] := fun e => hne' (hr.order_nil.1 e)
  -- the first expert's proposal
  obtain ⟨o, ho⟩ : ∃ o, (if SR = [] then R.getLast? else SR.getLast?) = some o := by
    by_cases e : SR = []
    · rw [if_pos e]
      rcases nil_or_last R with e' | ⟨c, y, rfl⟩
      · exact absurd ⟨e', e⟩ hne'
      · exact ⟨y, by simp⟩
    · rw [if_neg e]
      rcases nil_or_last SR with e' | ⟨c, y, rfl⟩
      · exact absurd e' e
      · exact ⟨y, by simp⟩
  have hold : oldest t = some (o.id, o.size) := by rw [hr.oldest_eq, ho]; rfl
  have hoin : o ∈ R ++ SR := by
    split at ho
    · exact List.mem_append_left _ (List.mem_of_getLast? ho)
    · exact List.mem_append_right _ (List.mem_of_getLast? ho)
  obtain ⟨pl, hte, hder⟩ : ∃ pl : Place, s.lru.toEvict = some (pl, o.id) ∧ pl ≠ .lfu ∧ ∀ s' : State A, s'.lru = s.lru → deref s' (some (pl, o.id)) = .ok o.toReq := by
    have := hr.lr.toEvict_spec
    by_cases e : SR = []
    · rw [if_pos e] at this ho
      refine ⟨.r, by rw [this, ho]; rfl, by decide, fun s' hs' => ?_⟩
      have hl := hr.lr.r.lookup_mem (List.mem_of_getLast? ho)
      unfold deref
      rw [hs']
      simp only [hl]
    · rw [if_neg e] at this ho
      refine ⟨.sr, by rw [this, ho]; rfl, by decide, fun s' hs' => ?_⟩
      have hl := hr.lr.sr.lookup_mem (List.mem_of_getLast? ho)
      unfold deref
      rw [hs']
      simp only [hl]
  obtain ⟨hpl, hder⟩ := hder
  -- the second expert's proposal
  obtain ⟨i, hi1, hi2, hi3⟩ := hr.lf.toEvict_ok hord
  have hrare : rare t = some i := hi3
  obtain ⟨b, hb⟩ : ∃ b, t.contents.find? (fun x => some x.1 = rare t) = some b := by
    cases hf : t.contents.find? (fun x => some x.1 = rare t) with
    | some b => exact ⟨b, rfl⟩
    | none =>
      rw [List.find?_eq_none] at hf
      have him : i ∈ t.contents.ids := (hr.mem_contents i).2 (hr.mem_order.1 hi1)
      obtain ⟨x, hx, e⟩ := List.mem_map.1 him
      exact absurd (by rw [hrare, e]; simp) (hf x hx)
  have hbi : b.1 = i := by
    have := List.find?_some hb
    rw [hrare] at this
    simpa using this
  have hbm : b ∈ t.contents := List.mem_of_find?_eq_some hb
  obtain ⟨ob, hob, hobe⟩ := mem_of_contents hr hbm
  have hobi : ob.id = i := by rw [← hbi, ← hobe]
  -- the choice
  have hvt : ¬ s.candVt = (s.base.nReq : Int) := by rw [h.vt]; omega
  have hev : ∀ s', (∀ s1 : State A, s1 = { s with candVt := (s.base.nReq : Int), picks := s.picks.tail, cand := if A.lruWins s.w (s.draw % 100) then some (pl, o.id) else some (Place.lfu, i) } →
      evictChosen s1 (pl, o.id) (.lfu, i) (if A.lruWins s.w (s.draw % 100) then some (pl, o.id) else some (Place.lfu, i)) = .ok s') → Cacheus.evict s = .ok { s' with candVt := -1 } := by
    intro s' hch
    unfold Cacheus.evict
    rw [hi2, Res.bind_ok, if_neg hvt]
    unfold toEvict
    rw [hte, hi2]
    have e : (if A.lruWins s.w (s.draw % 100) = true then (.ok (some (pl, o.id)) : Res (Option (Place × ObjId))) else (.ok (some i) : Res (Option ObjId)) >>= fun x => .ok (x.map (fun id => (Place.lfu, id)))) =
        .ok (if A.lruWins s.w (s.draw % 100) then some (pl, o.id) else some (Place.lfu, i)) := by
      split <;> rfl
    rw [e, Res.bind_ok, Res.bind_ok]
    simp only
    rw [hch _ rfl, Res.bind_ok]
  have hdraw : s.draw = t.draws.headD 0 := by unfold State.draw; rw [h.draws]
  -- sublists
  have hsub : ∀ x : ObjId × Nat, (leave t x).contents.Sublist t.contents := by
    intro x
    exact List.Sublist.append List.filter_sublist List.filter_sublist
  have hlen : ∀ x : ObjId × Nat, x ∈ t.contents → (leave t x).contents.length < t.contents.length := by
    intro x hx
    have e : (leave t x).contents = t.contents.filter (fun y => y.1 ≠ x.1) := by
      unfold Spec.Cacheus.St.contents leave without
      rw [List.filter_append]
    rw [e]
    refine List.length_filter_lt_length_iff_exists.2 ⟨x, hx, by simp⟩
  have hoc : (o.id, o.size) ∈ t.contents := by
    unfold Spec.Cacheus.St.contents
    rw [hr.keep, hr.trial, ← cont_append]
    exact List.mem_map_of_mem (f := fun o : Obj Meta => (o.id, o.size)) hoin
  have hrt := Rel_draws (d := t.draws.tail) hr
  by_cases hab : o.id = i
  · -- they agree
    obtain ⟨l', f', H', k1, k2, ⟨R', SR', Hs, k3, k4, k5⟩, k6⟩ := hrt.evict_both hcs ho (by rw [hab]; exact hrare)
    have ht' : Spec.Cacheus.evict (weigh A) cs t = limitPast cs (leave { t with draws := t.draws.tail } (o.id, o.size)) := by
      unfold Spec.Cacheus.evict
      simp only
      have e1 : oldest ({ t with draws := t.draws.tail } : St A.W) = some (o.id, o.size) := hold
      have e2 : ({ t with draws := t.draws.tail } : St A.W).contents.find? (fun x => some x.1 = rare ({ t with draws := t.draws.tail } : St A.W)) = some b := hb
      rw [e1, e2]
      simp only
      rw [if_pos (by rw [hbi]; exact hab)]
    rw [ht']
    refine ⟨_, hev { s with candVt := (s.base.nReq : Int), picks := s.picks.tail, cand := if A.lruWins s.w (s.draw % 100) then some (pl, o.id) else some (Place.lfu, i), lru := { l' with H := H' }, lfu := f' } ?_,
      ⟨⟨R', SR', Hs, k3⟩, ?_, ?_, fun e => Or.inl (k6 e), h.csz, h.mdz, h.adm, h.now, h.gl, h.gf, h.w, h.hits, h.dull, ?_, rfl, h.get⟩, hsub _, hlen _ hoc⟩
    · intro s1 hs1
      unfold evictChosen
      rw [if_pos hab, hs1]
      simp only
      rw [k1, Res.bind_ok, k2, Res.bind_ok]
    · exact Nat.le_trans (charge_sublist List.filter_sublist) h.half
    · exact Nat.le_trans (charge_sublist (hsub _)) h.cap
    · show s.picks.tail = t.draws.tail
      rw [h.draws]
  · have hna : ¬ (o.id, o.size).1 = b.1 := by rw [hbi]; exact hab
    have e1 : oldest ({ t with draws := t.draws.tail } : St A.W) = some (o.id, o.size) := hold
    have e2 : ({ t with draws := t.draws.tail } : St A.W).contents.find? (fun x => some x.1 = rare ({ t with draws := t.draws.tail } : St A.W)) = some b := hb
    have oin : o.id ∈ t.order := hr.mem_order.2 (by rw [← List.map_append]; exact List.mem_map_of_mem hoin)
    by_cases hwin : A.lruWins s.w (s.draw % 100) = true
    · obtain ⟨l', f', H', k1, k2, R', SR', Hs, k3, k4, k5⟩ := hrt.evict_first hcs ho
      obtain ⟨hit, x', q1, q2⟩ := h.gl.get o.toReq
      have ht' : Spec.Cacheus.evict (weigh A) cs t = { limitPast cs (leave { t with draws := t.draws.tail } (o.id, o.size)) with ghostLru := Experts.remember (cs / 2) t.ghostLru (o.id, o.size) } := by
        unfold Spec.Cacheus.evict
        simp only
        rw [e1, e2]
        simp only
        rw [if_neg hna, if_pos]
        show A.lruWins t.w (t.draws.headD 0 % 100) = true
        rw [← h.w, ← hdraw]; exact hwin
      rw [ht']
      refine ⟨_, hev { s with candVt := (s.base.nReq : Int), picks := s.picks.tail, cand := if A.lruWins s.w (s.draw % 100) then some (pl, o.id) else some (Place.lfu, i), lru := { l' with H := H' }, lfu := f', lruG := x' } ?_,
        ⟨⟨R', SR', Hs, k3.lr, k3.keep, k3.trial, k3.past, k3.lf, k3.hf⟩, ?_, ?_, ?_, h.csz, h.mdz, h.adm, h.now, q2, h.gf, h.w, h.hits, h.dull, ?_, rfl, h.get⟩, hsub _, hlen _ hoc⟩
      · intro s1 hs1
        unfold evictChosen
        rw [if_neg hab, if_pos hwin, if_pos rfl]
        rw [hder s1 (by rw [hs1]), Res.bind_ok, hs1]
        simp only
        rw [k1, Res.bind_ok, show o.toReq.id = o.id from rfl, k2, Res.bind_ok, q1, Res.bind_ok]
        simp only [hwin, if_true, if_false, Bool.false_eq_true]
      · exact Nat.le_trans (charge_sublist List.filter_sublist) h.half
      · exact Nat.le_trans (charge_sublist (hsub _)) h.cap
      · intro e
        have : i ∈ t.order.filter (fun j => j ≠ o.id) := List.mem_filter.2 ⟨hi1, decide_eq_true fun e' => hab e'.symm⟩
        have e' : t.order.filter (fun j => j ≠ o.id) = [] := e
        rw [e'] at this; cases this
      · show s.picks.tail = t.draws.tail
        rw [h.draws]
    · subst hobi
      obtain ⟨l', f', H', k1, k2, R', SR', Hs, k3, k4, k5⟩ := hrt.evict_second hcs hob hrare
      obtain ⟨of, m1, m2, m3, m4, m5⟩ := hr.lf.lookup_some hi1
      have hbe : (ob.id, of.size) = b := by
        refine eq_of_ids h.nodup ?_ hbm hbi.symm
        exact m5
      have hofs : of.size = ob.size := by
        rw [← hobe] at hbe
        exact congrArg Prod.snd hbe
      obtain ⟨hit, x', q1, q2⟩ := h.gf.get of.toReq
      have q2' : LL (cs / 2) x' (Experts.remember (cs / 2) t.ghostLfu b) := by
        have : (of.toReq.id, of.toReq.size) = b := by
          rw [← hobe]
          show (of.id, of.size) = _
          rw [m3, hofs]
        rw [this] at q2; exact q2
      have ht' : Spec.Cacheus.evict (weigh A) cs t = { limitPast cs (leave { t with draws := t.draws.tail } b) with ghostLfu := Experts.remember (cs / 2) t.ghostLfu b } := by
        unfold Spec.Cacheus.evict
        simp only
        rw [e1, e2]
        simp only
        rw [if_neg hna, if_neg]
        show ¬ A.lruWins t.w (t.draws.headD 0 % 100) = true
        rw [← h.w, ← hdraw]; exact hwin
      rw [hobe] at k3
      rw [ht']
      refine ⟨_, hev { s with candVt := (s.base.nReq : Int), picks := s.picks.tail, cand := if A.lruWins s.w (s.draw % 100) then some (pl, o.id) else some (Place.lfu, ob.id), lru := { l' with H := H' }, lfu := f', lfuG := x' } ?_,
        ⟨⟨R', SR', Hs, k3.lr, k3.keep, k3.trial, k3.past, k3.lf, k3.hf⟩, ?_, ?_, ?_, h.csz, h.mdz, h.adm, h.now, h.gl, q2', h.w, h.hits, h.dull, ?_, rfl, h.get⟩, hsub _, hlen _ hbm⟩
      · intro s1 hs1
        unfold evictChosen
        rw [if_neg hab, if_neg hwin, if_neg (by intro e; injection e with e; injection e with e _; exact hpl e.symm)]
        have hd : deref s1 (some (Place.lfu, ob.id)) = .ok of.toReq := by
          unfold deref
          rw [hs1]
          simp only [m1]
        rw [hd, Res.bind_ok, hs1]
        simp only
        rw [show of.toReq.id = ob.id from m3, k1, Res.bind_ok, k2, Res.bind_ok, q1, Res.bind_ok]
        simp only [hwin, if_true, if_false, Bool.false_eq_true]
      · exact Nat.le_trans (charge_sublist List.filter_sublist) h.half
      · exact Nat.le_trans (charge_sublist (hsub _)) h.cap
      · intro e
        have : o.id ∈ t.order.filter (fun j => j ≠ b.1) := List.mem_filter.2 ⟨oin, decide_eq_true fun e' => hab (by rw [← hbi]; exact e')⟩
        have e' : t.order.filter (fun j => j ≠ b.1) = [] := e
        rw [e'] at this; cases this
      · show s.picks.tail = t.draws.tail
        rw [h.draws]

/-- What `to_evict` names is what the reference throws out. -/
theorem toEvict_names (h : Sim cs g s t) (hne : t.contents ≠ []) :
    ∃ c n, toEvict s = .ok (some c, { s with candVt := (s.base.nReq : Int), picks := s.picks.tail, cand := some c }) ∧ (c.2, n) ∈ t.contents ∧
      (Spec.Cacheus.evict (weigh A) cs t).contents = t.contents.filter (fun y => y.1 ≠ c.2) := by
  obtain ⟨R, SR, H, hr⟩ := h.rel
  have hne' : ¬ (R = [] ∧ SR = []) := by
    rintro ⟨rfl, rfl⟩
    apply hne
    unfold Spec.Cacheus.St.contents
    rw [hr.keep, hr.trial]; rfl
  have hord : t.order ≠ [] := fun e => hne' (hr.order_nil.1 e)
  -- the first expert's proposal
  obtain ⟨o, ho⟩ : ∃ o, (if SR = [] then R.getLast? else SR.getLast?) = some o := by
    by_cases e : SR = []
    · rw [if_pos e]
      rcases nil_or_last R with e' | ⟨c, y, rfl⟩
      · exact absurd ⟨e', e⟩ hne'
      · exact ⟨y, by simp⟩
    · rw [if_neg e]
      rcases nil_or_last SR with e' | ⟨c, y, rfl⟩
      · exact absurd e' e
      · exact ⟨y, by simp⟩
  have hold : oldest t = some (o.id, o.size) := by rw [hr.oldest_eq, ho]; rfl
  have hoin : o ∈ R ++ SR := by
    split at ho
    · exact List.mem_append_left _ (List.mem_of_getLast? ho)
    · exact List.mem_append_right _ (List.mem_of_getLast? ho)
  obtain ⟨pl, hte, hder⟩ : ∃ pl : Place, s.lru.toEvict = some (pl, o.id) ∧ pl ≠ .lfu ∧ ∀ s' : State A, s'.lru = s.lru → deref s' (some (pl, o.id)) = .ok o.toReq := by
    have := hr.lr.toEvict_spec
    by_cases e : SR = []
    · rw [if_pos e] at this ho
      refine ⟨.r, by rw [this, ho]; rfl, by decide, fun s' hs' => ?_⟩
      have hl := hr.lr.r.lookup_mem (List.mem_of_getLast? ho)
      unfold deref
      rw [hs']
      simp only [hl]
    · rw [if_neg e] at this ho
      refine ⟨.sr, by rw [this, ho]; rfl, by decide, fun s' hs' => ?_⟩
      have hl := hr.lr.sr.lookup_mem (List.mem_of_getLast? ho)
      unfold deref
      rw [hs']
      simp only [hl]
  obtain ⟨hpl, hder⟩ := hder
  -- the second expert's proposal
  obtain ⟨i, hi1, hi2, hi3⟩ := hr.lf.toEvict_ok hord
  have hrare : rare t = some i := hi3
  obtain ⟨b, hb⟩ : ∃ b, t.contents.find? (fun x => some x.1 = rare t) = some b := by
    cases hf : t.contents.find? (fun x => some x.1 = rare t) with
    | some b => exact ⟨b, rfl⟩
    | none =>
      rw [List.find?_eq_none] at hf
      have him : i ∈ t.contents.ids := (hr.mem_contents i).2 (hr.mem_order.1 hi1)
      obtain ⟨x, hx, e⟩ := List.mem_map.1 him
      exact absurd (by rw [hrare, e]; simp) (hf x hx)
  have hbi : b.1 = i := by
    have := List.find?_some hb
    rw [hrare] at this
    simpa using this
  have hbm : b ∈ t.contents := List.mem_of_find?_eq_some hb
  obtain ⟨ob, hob, hobe⟩ := mem_of_contents hr hbm
  have hobi : ob.id = i := by rw [← hbi, ← hobe]
  have hdraw : s.draw = t.draws.headD 0 := by unfold State.draw; rw [h.draws]
  have hfil : ∀ x : ObjId × Nat, (leave ({ t with draws := t.draws.tail } : St A.W) x).contents = t.contents.filter (fun y => y.1 ≠ x.1) := by
    intro x
    unfold Spec.Cacheus.St.contents leave without
    rw [List.filter_append]
  have hoc : (o.id, o.size) ∈ t.contents := by
    unfold Spec.Cacheus.St.contents
    rw [hr.keep, hr.trial, ← cont_append]
    exact List.mem_map_of_mem (f := fun o : Obj Meta => (o.id, o.size)) hoin
  have e1 : oldest ({ t with draws := t.draws.tail } : St A.W) = some (o.id, o.size) := hold
  have e2 : ({ t with draws := t.draws.tail } : St A.W).contents.find? (fun x => some x.1 = rare ({ t with draws := t.draws.tail } : St A.W)) = some b := hb
  have ht : toEvict s = .ok (if A.lruWins s.w (s.draw % 100) then some (pl, o.id) else some (Place.lfu, i),
      { s with candVt := (s.base.nReq : Int), picks := s.picks.tail, cand := if A.lruWins s.w (s.draw % 100) then some (pl, o.id) else some (Place.lfu, i) }) := by
    unfold toEvict
    rw [hte, hi2]
    have e : (if A.lruWins s.w (s.draw % 100) = true then (.ok (some (pl, o.id)) : Res (Option (Place × ObjId))) else (.ok (some i) : Res (Option ObjId)) >>= fun x => .ok (x.map (fun id => (Place.lfu, id)))) =
        .ok (if A.lruWins s.w (s.draw % 100) then some (pl, o.id) else some (Place.lfu, i)) := by
      split <;> rfl
    rw [e, Res.bind_ok]
  by_cases hwin : A.lruWins s.w (s.draw % 100) = true
  · rw [if_pos hwin] at ht
    refine ⟨(pl, o.id), o.size, ht, hoc, ?_⟩
    unfold Spec.Cacheus.evict
    simp only
    rw [e1, e2]
    simp only
    by_cases hab : o.id = b.1
    · rw [if_pos hab]; exact hfil (o.id, o.size)
    · rw [if_neg hab, if_pos (show (weigh A).wins t.w (t.draws.headD 0 % 100) = true by rw [← hdraw, ← h.w]; exact hwin)]
      exact hfil (o.id, o.size)
  · rw [if_neg hwin] at ht
    refine ⟨(.lfu, i), b.2, ht, by rw [← hbi]; exact hbm, ?_⟩
    unfold Spec.Cacheus.evict
    simp only
    rw [e1, e2]
    simp only
    by_cases hab : o.id = b.1
    · rw [if_pos hab, ← hbi, ← hab]; exact hfil (o.id, o.size)
    · rw [if_neg hab, if_neg (show ¬ (weigh A).wins t.w (t.draws.headD 0 % 100) = true by rw [← hdraw, ← h.w]; exact hwin), ← hbi]
      exact hfil b

/-- An eviction right after `to_evict` is the eviction without it. -/
theorem evict_after (hvt : s.candVt ≠ (s.base.nReq : Int)) {c : Place × ObjId} (ht : toEvict s = .ok (some c, { s with candVt := (s.base.nReq : Int), picks := s.picks.tail, cand := some c })) :
    Cacheus.evict { s with candVt := (s.base.nReq : Int), picks := s.picks.tail, cand := some c } = Cacheus.evict s := by
  conv => rhs; unfold Cacheus.evict
  rw [if_neg hvt, ht]
  unfold Cacheus.evict
  rw [if_pos rfl]

/-! ### insert -/

theorem spill_frame (half : Nat) : ∀ (n : Nat) (t : St A.W), (spill half n t).ghostLru = t.ghostLru ∧ (spill half n t).ghostLfu = t.ghostLfu ∧ (spill half n t).w = t.w ∧ (spill half n t).hits = t.hits ∧
    (spill half n t).dull = t.dull ∧ (spill half n t).draws = t.draws ∧ (spill half n t).now = t.now ∧ (spill half n t).adm = t.adm := by
  intro n
  induction n with
  | zero => intro t; exact ⟨rfl, rfl, rfl, rfl, rfl, rfl, rfl, rfl⟩
  | succ n ih =>
    intro t
    unfold spill
    split
    · split
      · exact ih _
      · exact ⟨rfl, rfl, rfl, rfl, rfl, rfl, rfl, rfl⟩
    · exact ⟨rfl, rfl, rfl, rfl, rfl, rfl, rfl, rfl⟩

theorem insert_frame (C : Nat) (t : St A.W) (r : Req) : (Spec.Cacheus.insert C t r).ghostLru = t.ghostLru ∧ (Spec.Cacheus.insert C t r).ghostLfu = t.ghostLfu ∧ (Spec.Cacheus.insert C t r).w = t.w ∧
    (Spec.Cacheus.insert C t r).hits = t.hits ∧ (Spec.Cacheus.insert C t r).dull = t.dull ∧ (Spec.Cacheus.insert C t r).draws = t.draws ∧ (Spec.Cacheus.insert C t r).now = t.now ∧
    (Spec.Cacheus.insert C t r).adm = t.adm := by
  unfold Spec.Cacheus.insert
  split
  · exact ⟨rfl, rfl, rfl, rfl, rfl, rfl, rfl, rfl⟩
  · simp only
    split
    · exact spill_frame _ _ _
    · exact spill_frame _ _ _

theorem canInsert_eq {l : SRLRU} {R SR H : List (Obj Meta)} (h : LRep cs l R SR H) (r : Req) : l.canInsert r = decide (r.size ≤ cs / 2) := by
  unfold SRLRU.canInsert
  cases l.H.base.lookup r.id with
  | none => simp only [h.md, h.sr.csz, Nat.add_zero]
  | some o => simp only [h.md, h.r.csz, Nat.add_zero]

theorem insert0 (hcs : 0 < cs) (h : Sim cs g s t) {r : Req} (hn : r.id ∉ t.contents.ids) (hsz : 0 < r.size % u32) (hfit : charge 0 t.contents + r.size ≤ cs) :
    ∃ s', insert0 s r = .ok s' ∧ Sim cs g s' (Spec.Cacheus.insert cs t r) ∧ (Spec.Cacheus.insert cs t r).contents.Subperm ((r.id, r.size % u32) :: t.contents) := by
  obtain ⟨R, SR, H, hr⟩ := h.rel
  have hmod := Nat.mod_le r.size u32
  unfold Cacheus.insert0
  rw [canInsert_eq hr.lr r]
  by_cases hle : r.size ≤ cs / 2
  · obtain ⟨f1, l', f', R', SR', H', k1, k2, k3, k4, k5, k6⟩ := hr.insert_ok hcs h.emp (fun hh => hn ((hr.mem_contents r.id).2 hh)) hsz hle
    obtain ⟨o1, o2, o3, o4, o5, o6, o7, o8⟩ := insert_frame cs t r
    have hsub : (Spec.Cacheus.insert cs t r).contents.Subperm ((r.id, r.size % u32) :: t.contents) := by
      unfold Spec.Cacheus.St.contents
      rw [k3.keep, k3.trial, hr.keep, hr.trial]
      exact k6
    have hhalf := h.half
    rw [if_pos (decide_eq_true hle), k1, Res.bind_ok, k2, Res.bind_ok]
    refine ⟨_, rfl, ⟨⟨R', SR', H', k3⟩, ?_, ?_, fun e => absurd e k4, h.csz, h.mdz, by rw [o8]; exact h.adm, by rw [o7]; exact h.now, by rw [o1]; exact h.gl, by rw [o2]; exact h.gf, by rw [o3]; exact h.w,
      by rw [o4]; exact h.hits, by rw [o5]; exact h.dull, by rw [o6]; exact h.draws, h.vt, h.get⟩, hsub⟩
    · rw [k3.keep]; rw [hr.keep] at hhalf; exact k5 hhalf
    · refine Nat.le_trans (charge_subperm hsub) ?_
      simp only [charge]; omega
  · have ht : Spec.Cacheus.insert cs t r = t := by unfold Spec.Cacheus.insert; rw [if_pos (by omega)]
    rw [if_neg (by simpa using hle), ht]
    exact ⟨s, rfl, h, (List.sublist_cons_self _ _).subperm⟩

theorem insert (hcs : 0 < cs) (h : Sim cs g s t) {r : Req} (hn : r.id ∉ t.contents.ids) (hsz : 0 < r.size % u32) (hfit : charge 0 t.contents + r.size ≤ cs) :
    ∃ s', insert s r = .ok s' ∧ Sim cs false s' (if g then Spec.Cacheus.adapt (weigh A) cs (Spec.Cacheus.insert cs t r) else Spec.Cacheus.insert cs t r) := by
  obtain ⟨s', e, h', _⟩ := h.insert0 hcs hn hsz hfit
  unfold Cacheus.insert
  rw [e, Res.bind_ok]
  exact ⟨_, rfl, h'.finish⟩

/-! ### get -/

theorem bump (h : Sim cs g s t) : Sim cs true ((algo A).bump s) { t with now := t.now + 1 } := by
  obtain ⟨R, SR, H, hr⟩ := h.rel
  refine ⟨⟨R, SR, H, hr.lr, hr.keep, hr.trial, hr.past, hr.lf, hr.hf⟩, h.half, h.cap, h.emp, h.csz, h.mdz, h.adm, ?_, h.gl, h.gf, h.w, h.hits, h.dull, h.draws, h.vt, rfl⟩
  show s.base.nReq + 1 = t.now + 1
  rw [h.now]

theorem mustEvict (h : Sim cs g s t) (r : Req) : (algo A).mustEvict s r = decide (cs < charge 0 t.contents + r.size) := by
  unfold Algo.mustEvict
  have h1 : (algo A).occ s = (charge 0 t.contents : Nat) := h.occ
  have h2 : (algo A).md s = 0 := h.mdz
  have h3 : (algo A).cacheSize s = cs := h.csz
  rw [h1, h2, h3, decide_eq_decide]
  omega

theorem loop (hcs : 0 < cs) (r : Req) (hle : r.size ≤ cs) : ∀ (n : Nat) (s : State A) (t : St A.W), Sim cs g s t → t.contents.length ≤ n →
    ∃ s', (algo A).evictLoop r n s = .ok s' ∧ Sim cs g s' (Spec.Cacheus.room (weigh A) cs r.size n t) ∧ (Spec.Cacheus.room (weigh A) cs r.size n t).contents.Sublist t.contents ∧
      charge 0 (Spec.Cacheus.room (weigh A) cs r.size n t).contents + r.size ≤ cs := by
  intro n
  induction n with
  | zero =>
    intro s t h hn
    have e : t.contents = [] := List.length_eq_zero_iff.1 (by omega)
    unfold Algo.evictLoop
    have hc : charge 0 t.contents = 0 := by rw [e]; rfl
    rw [h.mustEvict, if_neg (by simp only [decide_eq_true_eq]; omega)]
    refine ⟨s, rfl, h, List.Sublist.refl _, ?_⟩
    show charge 0 t.contents + _ ≤ _
    omega
  | succ n ih =>
    intro s t h hn
    unfold Algo.evictLoop Spec.Cacheus.room
    rw [h.mustEvict, bytes_eq_charge]
    by_cases hc : charge 0 t.contents + r.size ≤ cs
    · rw [if_neg (by simp; omega), if_pos hc]
      exact ⟨s, rfl, h, List.Sublist.refl _, hc⟩
    · rw [if_pos (by simp; omega), if_neg hc]
      have hne : t.contents ≠ [] := by
        intro e
        rw [e] at hc
        simp [charge] at hc
        omega
      obtain ⟨s1, e1, h1, h2, h3⟩ := h.evict hcs hne
      rw [show (algo A).evict s r = .ok s1 from e1, Res.bind_ok]
      obtain ⟨s2, e2, h4, h5, h6⟩ := ih s1 _ h1 (by omega)
      exact ⟨s2, e2, h4, h5.trans h2, h6⟩

theorem regret_contents (t : St A.W) (id : ObjId) : (Spec.Cacheus.regret (weigh A) t id).contents = t.contents := rfl

/-- What `can_insert` does. -/
theorem canInsert (h : Sim cs g s t) (r : Req) :
    (canInsert s r).1 = decide ((t.adm.admit r).1 = true ∧ r.size ≤ cs) ∧
      Sim cs (g && (canInsert s r).1) (canInsert s r).2 (if g && !(canInsert s r).1 then Spec.Cacheus.adapt (weigh A) cs { t with adm := (t.adm.admit r).2 } else { t with adm := (t.adm.admit r).2 }) := by
  have e1 : (canInsert0 s r).1 = decide ((t.adm.admit r).1 = true ∧ r.size ≤ cs) := by
    unfold canInsert0
    rw [canInsertDefault_eq]
    simp only [admitsBase, h.adm, h.mdz, h.csz, Nat.add_zero, Bool.decide_and, Bool.decide_eq_true]
  have h2 : Sim cs g (canInsert0 s r).2 { t with adm := (t.adm.admit r).2 } := by
    unfold canInsert0
    rw [canInsertDefault_eq]
    obtain ⟨R, SR, H, hr⟩ := h.rel
    exact ⟨⟨R, SR, H, hr.lr, hr.keep, hr.trial, hr.past, hr.lf, hr.hf⟩, h.half, h.cap, h.emp, h.csz, h.mdz, by rw [← h.adm], h.now, h.gl, h.gf, h.w, h.hits, h.dull, h.draws, h.vt, h.get⟩
  unfold Cacheus.canInsert
  refine ⟨e1, ?_⟩
  simp only
  cases hc : (canInsert0 s r).1 with
  | true => simpa using h2
  | false => simpa using h2.finish

theorem get_ok (hcs : 0 < cs) (h : Sim cs false s t) {r : Req} (hsz : 0 < r.size % u32) :
    ∃ s', (algo A).get s r = .ok ((Spec.Cacheus.get (weigh A) cs t r).1, s') ∧ Sim cs false s' (Spec.Cacheus.get (weigh A) cs t r).2 := by
  obtain ⟨s1, e1, h1, h2⟩ := h.bump.look hcs r
  unfold Spec.Cacheus.get Spec.Cacheus.look
  simp only
  by_cases hm : r.id ∈ t.contents.ids
  · have hm' : r.id ∈ ({ t with now := t.now + 1 } : St A.W).contents.ids := hm
    rw [decide_eq_true hm'] at e1
    rw [if_pos hm']
    exact ⟨s1, get_hit e1, h1 hm'⟩
  · have hm' : r.id ∉ ({ t with now := t.now + 1 } : St A.W).contents.ids := hm
    rw [decide_eq_false hm'] at e1
    rw [if_neg hm']
    have h3 := h2 hm'
    have hc1 : r.id ∉ (Spec.Cacheus.regret (weigh A) { t with now := t.now + 1 } r.id).contents.ids := by rw [regret_contents]; exact hm'
    generalize Spec.Cacheus.regret (weigh A) { t with now := t.now + 1 } r.id = t1 at *
    obtain ⟨c1, c2⟩ := h3.canInsert r
    simp only [Bool.false_eq_true, if_false]
    by_cases ha : (t1.adm.admit r).1 = true ∧ r.size ≤ cs
    · rw [if_pos ha]
      rw [decide_eq_true ha] at c1
      rw [c1] at c2
      simp only [Bool.and_true, Bool.not_true, Bool.and_false, Bool.false_eq_true, if_false] at c2
      obtain ⟨s3, e3, h4, h5, h6⟩ := loop hcs r ha.2 _ _ _ c2 (Nat.le_refl _)
      have hn : r.id ∉ (Spec.Cacheus.room (weigh A) cs r.size ({ t1 with adm := (t1.adm.admit r).2 } : St A.W).contents.length { t1 with adm := (t1.adm.admit r).2 }).contents.ids :=
        notMem_ids_of_subperm h5.subperm hc1
      obtain ⟨s4, e4, h7⟩ := h4.insert hcs hn hsz h6
      refine ⟨s4, get_accept e1 (s2 := (Cacheus.canInsert s1 r).2) (Prod.ext c1 rfl) ?_ e4, h7⟩
      have : (algo A).fuel (Cacheus.canInsert s1 r).2 = ({ t1 with adm := (t1.adm.admit r).2 } : St A.W).contents.length := c2.fuel
      rw [this]; exact e3
    · rw [if_neg ha]
      rw [decide_eq_false ha] at c1
      rw [c1] at c2
      exact ⟨_, get_reject e1 (Prod.ext c1 rfl), c2⟩

theorem remove (hcs : 0 < cs) (h : Sim cs g s t) (id : ObjId) :
    ∃ s', remove s id = .ok (decide (id ∈ t.contents.ids), s') ∧ cached s' = t.contents.filter (fun x => x.1 ≠ id) := by
  obtain ⟨R, SR, H, hr⟩ := h.rel
  unfold Cacheus.remove
  by_cases hm : id ∈ t.contents.ids
  · obtain ⟨x, hx, rfl⟩ := List.mem_map.1 hm
    obtain ⟨o, ho, rfl⟩ := mem_of_contents hr hx
    obtain ⟨l', f', H', k1, k2, R', SR', Hs, k3, _⟩ := hr.remove_both hcs ho
    rw [decide_eq_true hm, k1, Res.bind_ok]
    simp only
    rw [k2, Res.bind_ok]
    refine ⟨_, rfl, ?_⟩
    have e : ∀ t' : St A.W, Rel cs { l' with H := H' } f' R' SR' Hs t' → cached ({ s with lru := { l' with H := H' }, lfu := f' } : State A) = t'.contents := by
      intro t' k
      unfold cached Spec.Cacheus.St.contents
      rw [k.lr.r.objs, k.lr.sr.objs, k.keep, k.trial]
    rw [e _ k3]
    unfold Spec.Cacheus.St.contents limitPast leave without
    rw [List.filter_append]
  · have hn : id ∉ R.map (·.id) ++ SR.map (·.id) := fun hh => hm ((hr.mem_contents id).2 hh)
    rw [hr.lr.remove_miss hn, Res.bind_ok]
    simp only
    rw [hr.lf.remove_miss (fun hh => hn (hr.mem_order.1 hh)), Res.bind_ok, decide_eq_false hm]
    refine ⟨_, rfl, ?_⟩
    rw [List.filter_eq_self.2]
    · exact h.cached_eq
    · intro x hx
      simp only [ne_eq, decide_eq_true_eq, decide_not, Bool.not_eq_true', decide_eq_false_iff_not]
      exact fun e => hm (e ▸ List.mem_map_of_mem (f := Prod.fst) hx)

end Sim

/-! ### runs -/

/-- requests for objects whose size, as the cache stores it, is not zero -/
def Pos (r : Req) : Prop := 0 < r.size % u32

def rights : Perms := { rem := false }

variable {s : State A} {t : St A.W}

theorem step_ok (hcs : 0 < cs) (h : Sim cs false s t) {op : Op} (ho : Calls rights Pos op) :
    ∃ s', (algo A).step s op = .ok ((Spec.Cacheus.step (weigh A) cs t op).1, s') ∧ Sim cs false s' (Spec.Cacheus.step (weigh A) cs t op).2 := by
  cases op with
  | get r => exact h.get_ok hcs ho
  | find r u =>
    cases u with
    | false =>
      refine ⟨s, h.find_false hcs r, ?_⟩
      exact h
    | true =>
      obtain ⟨s', e, h1, h2⟩ := h.look hcs r
      unfold Spec.Cacheus.step Spec.Cacheus.look
      simp only [if_true]
      refine ⟨s', ?_, ?_⟩
      · show find s r true = _
        rw [e]; split <;> rename_i hc <;> simp [hc]
      · split
        · rename_i hc; exact h1 hc
        · rename_i hc; exact h2 hc
  | remove id => simp [Calls, rights] at ho
  | evict r =>
    unfold Algo.step Spec.Cacheus.step
    simp only
    by_cases hne : t.contents = []
    · rw [if_neg (by show ¬ s.lru.nObj > 0; rw [h.nObj, hne]; simp), if_pos hne]
      exact ⟨s, rfl, h⟩
    · obtain ⟨s', e, h1, _⟩ := h.evict hcs hne
      have : 0 < t.contents.length := List.length_pos_iff.2 hne
      rw [if_pos (by show s.lru.nObj > 0; rw [h.nObj]; omega), if_neg hne, show (algo A).evict s r = .ok s' from e, Res.bind_ok]
      exact ⟨s', rfl, h1⟩
  | insert r =>
    unfold Algo.step Spec.Cacheus.step
    simp only
    rw [show (algo A).find s r false = .ok (decide (r.id ∈ t.contents.ids), s) from h.find_false hcs r, Res.bind_ok]
    simp only
    rw [h.mustEvict, bytes_eq_charge]
    by_cases hc : r.id ∉ t.contents.ids ∧ charge 0 t.contents + r.size ≤ cs
    · rw [if_pos (by simp only [decide_eq_false_iff_not]; exact ⟨hc.1, by omega⟩), if_pos hc]
      obtain ⟨s', e, h1⟩ := h.insert hcs hc.1 (by simp only [Calls, rights, true_and] at ho; exact ho) hc.2
      rw [show (algo A).insert s r = .ok s' from e, Res.bind_ok]
      exact ⟨s', rfl, h1⟩
    · rw [if_neg (by simp only [decide_eq_false_iff_not]; exact fun hh => hc ⟨hh.1, by omega⟩), if_neg hc]
      exact ⟨s, rfl, h⟩

theorem run_ok (hcs : 0 < cs) : ∀ (ops : List Op) (s : State A) (t : St A.W), Sim cs false s t → (∀ op ∈ ops, Calls rights Pos op) →
    ∃ s', (algo A).run s ops = .ok ((Spec.Cacheus.run (weigh A) cs t ops).1, s') ∧ Sim cs false s' (Spec.Cacheus.run (weigh A) cs t ops).2 := by
  intro ops
  induction ops with
  | nil => intro s t h _; exact ⟨s, rfl, h⟩
  | cons op ops ih =>
    intro s t h ho
    obtain ⟨s1, e1, h1⟩ := step_ok hcs h (ho op List.mem_cons_self)
    obtain ⟨s2, e2, h2⟩ := ih s1 _ h1 (fun o hx => ho o (List.mem_cons_of_mem _ hx))
    refine ⟨s2, ?_, h2⟩
    simp only [Algo.run, e1, Res.bind_ok, e2, Spec.Cacheus.run]

theorem reach (hcs : 0 < cs) {s0 : State A} (h0 : Sim cs false s0 t) {ops : List Op} {out : List Bool} (ho : ∀ op ∈ ops, Calls rights Pos op) (h : Reaches (algo A) s0 ops out s) :
    Sim cs false s (Spec.Cacheus.run (weigh A) cs t ops).2 ∧ out = (Spec.Cacheus.run (weigh A) cs t ops).1 := by
  obtain ⟨s', e, h'⟩ := run_ok hcs ops s0 t h0 ho
  unfold Reaches at h
  rw [e] at h
  injection h with h; injection h with h1 h; rw [← h]; exact ⟨h', h1.symm⟩

theorem adapt_contents (K : Weighing W) (C : Nat) (t : St W) : (Spec.Cacheus.adapt K C t).contents = t.contents := by
  unfold Spec.Cacheus.adapt
  split
  · split
    · rfl
    · split
      · rfl
      · split <;> rfl
  · rfl

theorem demote_perm (half need : Nat) : ∀ (n : Nat) (a b : Contents), ((Spec.Cacheus.demote half need n (a, b)).1 ++ (Spec.Cacheus.demote half need n (a, b)).2).Perm (a ++ b) := by
  intro n
  induction n with
  | zero => intro a b; exact List.Perm.refl _
  | succ n ih =>
    intro a b
    unfold Spec.Cacheus.demote
    rcases nil_or_last a with rfl | ⟨c, y, rfl⟩
    · simp
    · rw [List.getLast?_concat]
      simp only
      split
      · rw [List.dropLast_concat]
        refine (ih _ _).trans ?_
        rw [List.append_assoc]; exact List.Perm.refl _
      · exact List.Perm.refl _

theorem split_perm (l : Contents) (id : ObjId) : (l.filter (fun x => x.1 = id) ++ l.filter (fun x => x.1 ≠ id)).Perm l := by
  have := List.filter_append_perm (fun x : ObjId × Nat => decide (x.1 = id)) l
  simpa using this

theorem hit_perm (C : Nat) (t : St W) (id : ObjId) : (Spec.Cacheus.hit C t id).contents.Perm t.contents := by
  unfold Spec.Cacheus.hit
  simp only
  split
  · exact List.Perm.append_right _ (split_perm _ _)
  · refine (demote_perm _ _ _ _ _).trans ?_
    unfold Spec.Cacheus.St.contents without
    refine List.Perm.trans ?_ (List.Perm.append_left _ (split_perm t.trial id))
    rw [← List.append_assoc]
    exact List.Perm.append_right _ List.perm_append_comm

/-- the invariant of a run -/
def CInv (cs : Nat) (s : State A) : Prop := ∃ g t, Sim cs g s t

theorem Sim.insert_sub (hcs : 0 < cs) {g : Bool} (h : Sim cs g s t) {r : Req} (hok : Pos r) (hn : r.id ∉ (cached s).ids) (hme : (algo A).mustEvict s r = false) :
    ∃ s', (algo A).insert s r = .ok s' ∧ CInv cs s' ∧ (cached s').Subperm ((r.id, r.size % u32) :: cached s) := by
  rw [h.cached_eq] at hn ⊢
  rw [h.mustEvict] at hme
  have hfit : charge 0 t.contents + r.size ≤ cs := by simpa using hme
  obtain ⟨s1, _, _, h2⟩ := h.insert0 hcs hn hok hfit
  obtain ⟨s', e, h1⟩ := h.insert hcs hn hok hfit
  refine ⟨s', e, ⟨_, _, h1⟩, ?_⟩
  rw [h1.cached_eq]
  split
  · rw [adapt_contents]; exact h2
  · exact h2

theorem contract (A : Arith) (hcs : 0 < cs) :
    Contract (algo A) cached (CInv cs) (fun _ r => r.size ≤ cs) (fun s => (cached s).length) cs 0 rights Pos where
  csz := fun ⟨_, _, h⟩ => h.csz
  mdz := fun ⟨_, _, h⟩ => h.mdz
  nodup := fun ⟨_, _, h⟩ => by rw [h.cached_eq]; exact h.nodup
  occ := fun ⟨_, _, h⟩ => by rw [h.cached_eq]; exact h.occ
  nObj := fun ⟨_, _, h⟩ => by rw [h.cached_eq]; exact h.nObj
  cap := fun {s} ⟨_, _, h⟩ => by
    show s.lru.occ ≤ _
    rw [h.occ]; exact_mod_cast h.cap
  bump := fun ⟨_, _, h⟩ => ⟨⟨_, _, h.bump⟩, rfl⟩
  findF := fun _ {s} r ⟨_, _, h⟩ => by rw [h.cached_eq]; exact h.find_false hcs r
  findHit := fun {s} r ⟨_, t, h⟩ hm _ => by
    rw [h.cached_eq] at hm ⊢
    obtain ⟨s', e, h1, _⟩ := h.look hcs r
    rw [decide_eq_true hm] at e
    have h1 := h1 hm
    refine ⟨s', e, ⟨_, _, h1⟩, ?_⟩
    rw [h1.cached_eq]
    have hp := (hit_perm cs t r.id).subperm
    split
    · rw [adapt_contents]; exact hp
    · exact hp
  findMiss := fun {s} r ⟨_, t, h⟩ hm _ => by
    rw [h.cached_eq] at hm ⊢
    obtain ⟨s', e, _, h1⟩ := h.look hcs r
    rw [decide_eq_false hm] at e
    have h1 := h1 hm
    obtain ⟨c1, c2⟩ := h1.canInsert r
    refine ⟨s', e, ⟨_, _, h1⟩, by rw [h1.cached_eq, Sim.regret_contents], ⟨_, _, c2⟩, ?_, ?_⟩
    · rw [show ((algo A).canInsert s' r).2 = (canInsert s' r).2 from rfl, c2.cached_eq]
      split
      · rw [adapt_contents]; exact List.Perm.refl _
      · exact List.Perm.refl _
    · intro ha _
      rw [show ((algo A).canInsert s' r).1 = (canInsert s' r).1 from rfl, c1] at ha
      exact (of_decide_eq_true ha).2
  fuel := fun {s} ⟨_, _, h⟩ => by rw [h.cached_eq]; exact Nat.le_of_eq h.fuel.symm
  evictLoop := fun {s} r ⟨_, t, h⟩ _ hr _ hme => by
    have hne : t.contents ≠ [] := by
      intro e
      rw [h.mustEvict, e] at hme
      simp [charge] at hme
      omega
    obtain ⟨s', e, h1, h2, h3⟩ := h.evict hcs hne
    exact ⟨s', e, ⟨_, _, h1⟩, hr, by rw [h1.cached_eq, h.cached_eq]; exact h2.subperm, by rw [h1.cached_eq, h.cached_eq]; exact h3⟩
  insert := fun {s} r ⟨_, t, h⟩ hok _ hn hme => h.insert_sub hcs hok hn hme
  userInsert := fun _ {s} r ⟨_, t, h⟩ hok hn hme => h.insert_sub hcs hok hn hme
  remove := fun hp => by simp [rights] at hp
  evict := fun _ {s} r ⟨_, t, h⟩ hne => by
    rw [h.cached_eq] at hne ⊢
    obtain ⟨s', e, h1, h2, _⟩ := h.evict hcs hne
    exact ⟨s', e, ⟨_, _, h1⟩, by rw [h1.cached_eq]; exact h2.subperm⟩

end Verif.Cacheus
