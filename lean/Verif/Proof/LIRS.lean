import Verif.Algo.LIRS
import Verif.Proof.LIRSSpec
import Verif.Proof.QRep
import Verif.Proof.SingleBase
/-!
# The model of LIRS.c does what `Verif/Spec/LIRS.lean` says
-/

namespace Verif
open Spec

/-- a hit in an LRU cache whose objects carry the union member of the outer algorithm -/
theorem Rep.findLRU_hit {μ : Type} {cs md : Nat} {s : QState μ} {l : List (Obj μ)} (h : Rep cs md s l) {r : Req} (hm : r.id ∈ l.map (·.id)) :
    ∃ s' o, s.findLRU r true = .ok (some (touch r o), s') ∧ o ∈ l ∧ o.id = r.id ∧ Rep cs md s' (touch r o :: delL r.id l) := by
  obtain ⟨o, h1, h2, h3⟩ := h.lookup_some hm
  have hq : r.id ∈ s.q := by rw [h.q]; exact hm
  have hmod := h.modify r.id (touch r) (fun _ => rfl) (fun _ => rfl)
  have hp : (modL r.id (touch r) l).Perm (touch r o :: delL r.id l) := by
    refine ((charge_del h.nodup h2 h3).map _).trans ?_
    rw [List.map_cons, if_pos h3]
    refine List.Perm.cons _ ?_
    rw [show (delL r.id l).map (fun x => if x.id = r.id then touch r x else x) = delL r.id l from ?_]
    conv_rhs => rw [← List.map_id (delL r.id l)]
    apply List.map_congr_left
    intro x hx
    have : x.id ≠ r.id := by have := List.of_mem_filter hx; simpa using this
    simp [this]
  refine ⟨{ base := s.base.modify r.id (touch r), q := r.id :: s.q.erase r.id }, o, ?_, h2, h3, ?_⟩
  · simp only [QState.findLRU, findBase_hit h1, if_true, qMoveToHead, if_pos hq, Res.bind_ok]
  · refine ⟨h.csz, h.mdz, ?_, hmod.perm.trans hp, ?_, ?_, ?_, ?_⟩
    · show r.id :: s.q.erase r.id = _
      rw [List.map_cons, delL_ids, h.q]
      rw [show (touch r o).id = r.id from h3]
      congr 1
      exact List.Nodup.erase_eq_filter h.nodup r.id |>.trans (by congr 1; funext x; by_cases hx : x = r.id <;> simp [hx])
    · have := (hp.map (·.id)).nodup_iff.1 hmod.nodup
      exact this
    · have := hmod.occ
      rw [charge_perm (l := cont (modL r.id (touch r) l)) (l' := cont (touch r o :: delL r.id l)) (hp.map _)] at this
      exact this
    · have := hmod.nObj
      rw [hp.length_eq] at this
      exact this
    · intro x hx
      exact hmod.small x (hp.symm.subset hx)

theorem Rep.findLRU_miss {μ : Type} {cs md : Nat} {s : QState μ} {l : List (Obj μ)} (h : Rep cs md s l) {r : Req} (u : Bool) (hm : r.id ∉ l.map (·.id)) :
    s.findLRU r u = .ok (none, s) := by
  simp only [QState.findLRU, findBase_miss (h.lookup_none.2 hm)]

theorem cont_concat {μ : Type} {l : List (Obj μ)} {q : Contents} {x : ObjId × Nat} (h : cont l = q ++ [x]) :
    ∃ l0 o, l = l0 ++ [o] ∧ cont l0 = q ∧ (o.id, o.size) = x := by
  obtain ⟨a, b, rfl, h1, h2⟩ := List.map_eq_append_iff.1 h
  obtain ⟨o, l', rfl, h3, h4⟩ := List.map_eq_cons_iff.1 h2
  have : l' = [] := List.map_eq_nil_iff.1 h4
  subst this
  exact ⟨a, o, rfl, h1, h3⟩

namespace LIRS
open Spec.LIRS (Limits Block Core noneE HotBottom OnTop Queued SizeFits hotBytes coldBytes hotOf hotBytes_eq coldBytes_eq hotOf_append hotOf_cons cut dropCold
  demote coolDown toTop heat look admit trim)

/-- an object of the stack as a block -/
def blk (o : Obj Meta) : Block := ⟨o.id, o.size, o.mt.isLIR, o.mt.inCache⟩

/-- the state `s` of the model stands for the lists `t` -/
structure Sim (c : Limits) (g : Bool) (s : State) (t : Spec.LIRS.State) : Prop where
  csz : s.base.cacheSize = c.cache
  mdz : s.base.objMd = 0
  hl : s.hirsLimit = c.cold
  ll : s.lirsLimit = c.hot
  S : ∃ l, Rep c.hot 0 s.S l ∧ l.map blk = t.stack
  Q : ∃ l, Rep c.cold 0 s.Q l ∧ cont l = t.queue ∧ ∀ o ∈ l, o.mt.inCache = true
  N : ∃ l, Rep c.cache 0 s.NH l ∧ l.map (·.id) = t.gone
  lc : s.lirsCount = hotBytes t
  hc : s.hirsCount = coldBytes t
  occ : s.base.occ = ((hotBytes t + coldBytes t : Nat) : Int)
  nObj : s.base.nObj = (((hotOf t.stack).length + t.queue.length : Nat) : Int)
  fail : s.fail = none
  adm : s.base.adm = t.adm
  inGet : s.inGet = g

variable {c : Limits} {sz : ObjId → Nat} {E : ObjId → Prop} {g : Bool} {s : State} {t : Spec.LIRS.State}

theorem sub64_eq {a b : Nat} (h : b ≤ a) : sub64 a b = a - b := if_pos h

theorem blk_ids (l : List (Obj Meta)) : Spec.LIRS.ids (l.map blk) = l.map (·.id) := by
  simp [Spec.LIRS.ids, blk, Function.comp_def]

theorem sizeOk {r : Req} (h : r.size < u32) : SizeOk 0 r := by
  unfold SizeOk
  rw [Nat.mod_eq_of_lt h]
  exact h

theorem sum_blk (l : List (Obj Meta)) : ((l.map blk).map (·.size)).sum = charge 0 (cont l) := by
  induction l with
  | nil => rfl
  | cons o l ih => simp only [List.map_cons, List.sum_cons, cont_cons, charge, ih, blk]; omega

theorem cut_self (h : Core c sz E t) : cut t t.stack = t := by
  unfold cut
  have : t.gone.filter (· ∈ Spec.LIRS.ids t.stack) = t.gone := by
    rw [List.filter_eq_self]
    intro x hx
    obtain ⟨b, hb, e, _⟩ := (h.gone x).1 hx
    exact decide_eq_true (List.mem_map.2 ⟨b, hb, e⟩)
  rw [this]

theorem cut_cut {l l' : List Block} (h : l' <+: l) : cut (cut t l) l' = cut t l' := by
  unfold cut
  simp only
  rw [List.filter_filter]
  congr 1
  refine List.filter_congr fun x _ => ?_
  by_cases hx : x ∈ Spec.LIRS.ids l'
  · have : x ∈ Spec.LIRS.ids l := (h.sublist.map _).subset hx
    simp [hx, this]
  · simp [hx]

theorem pruneLoop_stop (n : Nat) (h : s.S.q.getLast? = s.S.q.head?) : pruneLoop n s = .ok s := by
  cases n <;> simp [pruneLoop, h]

theorem pruneLoop_sim : ∀ n s t, Sim c g s t → Core c sz E t → t.stack.length ≤ n + 1 → ∃ s', pruneLoop n s = .ok s' ∧ Sim c g s' (cut t (Spec.LIRS.prune t.stack)) := by
  intro n
  induction n with
  | zero =>
    intro s t h hc hlen
    obtain ⟨ls, hr, he⟩ := h.S
    refine ⟨s, pruneLoop_stop 0 ?_, ?_⟩
    · rw [hr.q]
      rw [← he, List.length_map] at hlen
      cases ls with
      | nil => rfl
      | cons a l =>
        cases l with
        | nil => rfl
        | cons b l => simp at hlen
    · have : Spec.LIRS.prune t.stack = t.stack := by
        cases hs : t.stack with
        | nil => rfl
        | cons a l =>
          cases l with
          | nil => rfl
          | cons b l => rw [hs] at hlen; simp at hlen
      rw [this, cut_self hc]
      exact h
  | succ n ih =>
    intro s t h hc hlen
    obtain ⟨ls, hr, he⟩ := h.S
    cases ls with
    | nil =>
      refine ⟨s, pruneLoop_stop _ (by rw [hr.q]; rfl), ?_⟩
      have : Spec.LIRS.prune t.stack = t.stack := by rw [← he]; rfl
      rw [this, cut_self hc]; exact h
    | cons a l1 =>
      rcases List.eq_nil_or_concat l1 with rfl | ⟨l0, o, hl1⟩
      · refine ⟨s, pruneLoop_stop _ (by rw [hr.q]; rfl), ?_⟩
        have : Spec.LIRS.prune t.stack = t.stack := by rw [← he]; rfl
        rw [this, cut_self hc]; exact h
      · rw [List.concat_eq_append] at hl1
        subst hl1
        have hstk : t.stack = (blk a :: l0.map blk) ++ [blk o] := by rw [← he]; simp
        have hnd := hr.nodup
        have hao : o.id ≠ a.id := by
          intro e
          simp only [List.map_cons, List.map_append, List.nodup_cons] at hnd
          exact hnd.1 (by simp [e])
        have hne : ¬ s.S.q.getLast? = s.S.q.head? := by
          rw [hr.q]
          rw [show (a :: (l0 ++ [o])).map (·.id) = (a.id :: l0.map (·.id)) ++ [o.id] by simp, List.getLast?_concat]
          simp [hao]
        have htail := hr.tailObj (l' := a :: l0) (o := o) (by simp)
        obtain ⟨S', hev, hrS'⟩ := hr.evictTail (l' := a :: l0) (o := o) (by simp)
        unfold pruneLoop
        rw [if_neg hne, htail, Res.bind_ok]
        by_cases hlir : o.mt.isLIR = true
        · rw [if_pos hlir]
          refine ⟨s, rfl, ?_⟩
          rw [Spec.LIRS.prune_eq (b := blk o) (by rw [hstk, List.getLast?_concat]) hlir, cut_self hc]
          exact h
        · rw [if_neg hlir]
          have hcold : (blk o).hot = false := by simpa [blk] using hlir
          have hhot : hotOf (blk a :: l0.map blk) = hotOf t.stack := by
            rw [hstk, hotOf_append, hotOf_cons (blk o)]
            simp [hcold]
          have hpre : (blk a :: l0.map blk) <+: t.stack := ⟨[blk o], hstk.symm⟩
          have hcut := hc.cut hpre hhot
          have hprune : Spec.LIRS.prune t.stack = Spec.LIRS.prune (blk a :: l0.map blk) := by
            rw [hstk, List.cons_append, Spec.LIRS.prune_cons, Spec.LIRS.prune_cons, List.rdropWhile_concat, if_pos (by simp [hcold])]
          have hob : blk o ∈ t.stack := by rw [hstk]; simp
          have hmem : ∀ x ∈ t.gone, (x ∈ Spec.LIRS.ids (blk a :: l0.map blk) ↔ x ≠ o.id) := by
            intro x hx
            have hsn := hc.sn
            rw [hstk] at hsn
            simp only [Spec.LIRS.ids, List.map_append, List.map_cons, List.map_nil] at hsn
            obtain ⟨b, hb, e, _⟩ := (hc.gone x).1 hx
            constructor
            · intro hm e'
              exact (List.nodup_append.1 hsn).2.2 x hm x (by rw [e']; simp [blk]) rfl
            · intro hx'
              rw [hstk] at hb
              rcases List.mem_append.1 hb with hb | hb
              · exact List.mem_map.2 ⟨b, hb, e⟩
              · rw [List.mem_singleton.1 hb] at e
                exact absurd e.symm hx'
          obtain ⟨ln, hrn, hen⟩ := h.N
          have hN : ∃ s1, (if o.mt.inCache = false then
                s.NH.remove o.id >>= fun p => (Except.ok { s with NH := p.2, nonresident := if p.1 then sub64 s.nonresident o.size else s.nonresident } : Res State)
              else .ok s) = .ok s1 ∧ s1.S = s.S ∧ Sim c g { s1 with S := S' } (cut t (blk a :: l0.map blk)) := by
            by_cases hic : o.mt.inCache = false
            · rw [if_pos hic]
              have hg : o.id ∈ t.gone := (hc.gone _).2 ⟨blk o, hob, rfl, hic⟩
              rw [← hen] at hg
              obtain ⟨N', hrem, hrN'⟩ := hrn.remove_hit hg
              rw [hrem, Res.bind_ok]
              refine ⟨_, rfl, rfl, h.csz, h.mdz, h.hl, h.ll, ⟨_, hrS', by simp [cut]⟩, h.Q, ⟨_, hrN', ?_⟩, ?_, h.hc, ?_, ?_, h.fail, h.adm, h.inGet⟩
              · rw [delL_ids, hen]
                refine List.filter_congr fun x hx => ?_
                rw [decide_eq_decide]
                exact (hmem x hx).symm
              · rw [hotBytes_eq]
                show s.lirsCount = charge 0 (hotOf (blk a :: l0.map blk))
                rw [hhot, ← hotBytes_eq]; exact h.lc
              · rw [h.occ]
                show _ = ((hotBytes _ + coldBytes t : Nat) : Int)
                rw [hotBytes_eq, hotBytes_eq]
                show _ = ((charge 0 (hotOf (blk a :: l0.map blk)) + coldBytes t : Nat) : Int)
                rw [hhot]
              · rw [h.nObj]
                show _ = (((hotOf (blk a :: l0.map blk)).length + t.queue.length : Nat) : Int)
                rw [hhot]
            · rw [if_neg hic]
              have hng : ∀ x ∈ t.gone, x ≠ o.id := by
                intro x hx e
                obtain ⟨b, hb, e', hr'⟩ := (hc.gone x).1 hx
                have : b = blk o := Spec.LIRS.eq_of_ids hc.sn hb hob (e'.trans e)
                rw [this] at hr'
                exact hic hr'
              refine ⟨s, rfl, rfl, h.csz, h.mdz, h.hl, h.ll, ⟨_, hrS', by simp [cut]⟩, h.Q, ⟨ln, hrn, ?_⟩, ?_, h.hc, ?_, ?_, h.fail, h.adm, h.inGet⟩
              · rw [hen]
                symm
                show t.gone.filter _ = _
                rw [List.filter_eq_self]
                intro x hx
                exact decide_eq_true ((hmem x hx).2 (hng x hx))
              · rw [hotBytes_eq]
                show s.lirsCount = charge 0 (hotOf (blk a :: l0.map blk))
                rw [hhot, ← hotBytes_eq]; exact h.lc
              · rw [h.occ]
                show _ = ((hotBytes _ + coldBytes t : Nat) : Int)
                rw [hotBytes_eq, hotBytes_eq]
                show _ = ((charge 0 (hotOf (blk a :: l0.map blk)) + coldBytes t : Nat) : Int)
                rw [hhot]
              · rw [h.nObj]
                show _ = (((hotOf (blk a :: l0.map blk)).length + t.queue.length : Nat) : Int)
                rw [hhot]
          obtain ⟨s1, e1, e2, hs1⟩ := hN
          rw [e1, Res.bind_ok, e2, hev, Res.bind_ok]
          have hlen' : (cut t (blk a :: l0.map blk)).stack.length ≤ n + 1 := by
            show (blk a :: l0.map blk).length ≤ n + 1
            rw [hstk, List.length_append] at hlen
            simpa using hlen
          obtain ⟨s', f1, f2⟩ := ih _ _ hs1 hcut hlen'
          refine ⟨s', f1, ?_⟩
          rw [hprune]
          have e3 : cut (cut t (blk a :: l0.map blk)) (Spec.LIRS.prune (cut t (blk a :: l0.map blk)).stack) = cut t (Spec.LIRS.prune (blk a :: l0.map blk)) :=
            cut_cut (l := blk a :: l0.map blk) (Spec.LIRS.prune_prefix _)
          rw [e3] at f2
          exact f2

theorem prune_sim (h : Sim c g s t) (hc : Core c sz E t) : ∃ s', prune s = .ok s' ∧ Sim c g s' (cut t (Spec.LIRS.prune t.stack)) := by
  obtain ⟨ls, hr, he⟩ := h.S
  refine pruneLoop_sim _ s t h hc ?_
  rw [hr.q, ← he, List.length_map, List.length_map]
  omega

theorem evictHIR_sim (h : Sim c g s t) (hc : Core c sz E t) {q : Contents} {x : ObjId × Nat} (hq : t.queue = q ++ [x]) :
    ∃ s', evictHIR s = .ok s' ∧ Sim c g s' (dropCold t) := by
  obtain ⟨lq, hrq, heq, hin⟩ := h.Q
  obtain ⟨l0, o, rfl, hl0, hox⟩ := cont_concat (heq.trans hq)
  obtain ⟨Q', hev, hrQ'⟩ := hrq.evictTail rfl
  have hx1 : o.id = x.1 := congrArg Prod.fst hox
  have hx2 : o.size = x.2 := congrArg Prod.snd hox
  have hxq : x.1 ∈ t.queue.ids := by rw [hq]; simp [Contents.ids]
  have hosz := hc.szQ x (by rw [hq]; simp)
  have hcb : coldBytes t = charge 0 q + x.2 := by
    rw [coldBytes_eq, hq, charge_append]
    simp [charge]
  have hoccs := h.occ
  have hnob := h.nObj
  rw [hq, List.length_append] at hnob
  obtain ⟨ls, hrs, hes⟩ := h.S
  obtain ⟨ln, hrn, hen⟩ := h.N
  rw [Spec.LIRS.dropCold_concat hq]
  have hhot : hotOf (t.stack.map (Spec.LIRS.mark x.1)) = hotOf t.stack :=
    Spec.LIRS.hotOf_map (fun b => ⟨Spec.LIRS.mark_id _ b, Spec.LIRS.mark_size _ b, Spec.LIRS.mark_hot _ b⟩) _
  have hids : Spec.LIRS.ids t.stack = ls.map (·.id) := by rw [← hes, blk_ids]
  unfold evictHIR
  rw [hrq.tailObj rfl, Res.bind_ok, hev, Res.bind_ok]
  have hcount : ∀ (S1 N1 : QState Meta) (k : Nat), (∃ l, Rep c.hot 0 S1 l ∧ l.map blk = t.stack.map (Spec.LIRS.mark x.1)) →
      (∃ l, Rep c.cache 0 N1 l ∧ l.map (·.id) = if x.1 ∈ Spec.LIRS.ids t.stack then x.1 :: t.gone else t.gone) →
      Sim c g (({ s with S := S1, NH := N1, nonresident := k, Q := Q', hirsCount := sub64 s.hirsCount o.size } : State).count (-((o.size + s.base.objMd : Nat) : Int)) (-1))
        { t with queue := q, stack := t.stack.map (Spec.LIRS.mark x.1), gone := if x.1 ∈ Spec.LIRS.ids t.stack then x.1 :: t.gone else t.gone } := by
    intro S1 N1 k hS1 hN1
    refine ⟨h.csz, h.mdz, h.hl, h.ll, hS1, ⟨l0, hrQ', hl0, fun y hy => hin y (List.mem_append_left _ hy)⟩, hN1, ?_, ?_, ?_, ?_, h.fail, h.adm, h.inGet⟩
    · rw [hotBytes_eq]
      show s.lirsCount = charge 0 (hotOf (t.stack.map (Spec.LIRS.mark x.1)))
      rw [hhot, ← hotBytes_eq]; exact h.lc
    · rw [coldBytes_eq]
      show sub64 s.hirsCount o.size = charge 0 q
      rw [h.hc, hcb, hx2, sub64_eq (by omega)]
      omega
    · rw [hotBytes_eq, coldBytes_eq]
      show s.base.occ + -((o.size + s.base.objMd : Nat) : Int) = ((charge 0 (hotOf (t.stack.map (Spec.LIRS.mark x.1))) + charge 0 q : Nat) : Int)
      rw [hhot, hoccs, hotBytes_eq, hcb, h.mdz, hx2]
      omega
    · show s.base.nObj + -1 = (((hotOf (t.stack.map (Spec.LIRS.mark x.1))).length + q.length : Nat) : Int)
      rw [hhot, hnob]
      simp
      omega
  cases hp : peek s.S o.id with
  | some y =>
    obtain ⟨hy, hyo⟩ := hrs.mem_lookup hp
    have hxs : x.1 ∈ Spec.LIRS.ids t.stack := by rw [hids]; exact List.mem_map.2 ⟨y, hy, hyo.trans hx1⟩
    have hyb : blk y ∈ t.stack := by rw [← hes]; exact List.mem_map_of_mem hy
    have hng : o.toReq.id ∉ ln.map (·.id) := by
      rw [hen]
      intro hm
      obtain ⟨b, hb, e, hr⟩ := (hc.gone _).1 hm
      have := (hc.notHot hb (by rw [e]; show o.id ∈ _; rw [hx1]; exact hxq)).2.1
      rw [hr] at this
      cases this
    obtain ⟨N', hins, hrN'⟩ := hrn.insert {} o.toReq hng (sizeOk (by show o.size < u32; rw [hx2]; exact hosz.2.1))
    simp only
    rw [hins, Res.bind_ok, Res.bind_ok]
    refine ⟨_, rfl, hcount _ _ _ ⟨_, hrs.modify y.id (fun y => { y with mt := { y.mt with inCache := false } }) (fun _ => rfl) (fun _ => rfl), ?_⟩ ⟨_, hrN', ?_⟩⟩
    · rw [← hes, modL, List.map_map, List.map_map]
      refine List.map_congr_left fun z _ => ?_
      simp only [Function.comp, Spec.LIRS.mark]
      by_cases e : z.id = y.id
      · rw [if_pos e, if_pos (show (blk z).id = x.1 from e.trans (hyo.trans hx1))]
        rfl
      · rw [if_neg e, if_neg (show ¬ (blk z).id = x.1 from fun e' => e (e'.trans (hyo.trans hx1).symm))]
    · rw [if_pos hxs, List.map_cons, hen]
      show o.id :: t.gone = _
      rw [hx1]
  | none =>
    have hns : o.id ∉ ls.map (·.id) := hrs.lookup_none.1 hp
    have hxs : x.1 ∉ Spec.LIRS.ids t.stack := by rw [hids, ← hx1]; exact hns
    simp only
    rw [Res.bind_ok]
    refine ⟨_, rfl, hcount s.S s.NH s.nonresident ⟨ls, hrs, ?_⟩ ⟨ln, hrn, by rw [if_neg hxs]; exact hen⟩⟩
    rw [hes]
    symm
    conv_rhs => rw [← List.map_id t.stack]
    refine List.map_congr_left fun b hb => ?_
    unfold Spec.LIRS.mark
    rw [if_neg]
    · rfl
    · intro e
      exact hxs (List.mem_map.2 ⟨b, hb, e⟩)

theorem hirLoop_sim {need : Nat} (hn : need ≤ c.cold) : ∀ n s t, Sim c g s t → Core c sz E t → t.queue.length < n →
    ∃ s', hirLoop need n s = .ok s' ∧ Sim c g s' (Spec.LIRS.makeRoom c need n t) := by
  intro n
  induction n with
  | zero => intro s t _ _ h; omega
  | succ n ih =>
    intro s t h hc hlen
    unfold hirLoop Spec.LIRS.makeRoom
    rw [h.hc, h.hl]
    by_cases hgt : coldBytes t + need > c.cold
    · rw [if_pos hgt, if_pos hgt]
      have hne : t.queue ≠ [] := by
        intro e
        rw [coldBytes_eq, e] at hgt
        simp only [charge] at hgt
        omega
      obtain ⟨q, x, hq⟩ := Spec.LIRS.exists_lastQ hne
      obtain ⟨s1, e1, h1⟩ := evictHIR_sim h hc hq
      rw [e1, Res.bind_ok]
      refine ih s1 _ h1 (hc.dropCold hq) ?_
      rw [Spec.LIRS.dropCold_concat hq]
      show q.length < n
      rw [hq, List.length_append] at hlen
      simp at hlen
      omega
    · rw [if_neg hgt, if_neg hgt]
      exact ⟨s, rfl, h⟩

theorem evictLIR_sim (h : Sim c g s t) (hc : Core c sz E t) (hb : HotBottom t) : ∃ s', evictLIR s = .ok s' ∧ Sim c g s' (demote c t) := by
  obtain ⟨l, b, hl, hbh⟩ := hb
  have hbm : b ∈ t.stack := by rw [hl]; simp
  obtain ⟨hs0, hs1, hs2⟩ := hc.szS b hbm
  have hbc : b.size ≤ c.cold := by omega
  obtain ⟨ls, hrs, hes⟩ := h.S
  rw [hl] at hes
  obtain ⟨l0, l1, rfl, hl0, hl1⟩ := List.map_eq_append_iff.1 hes
  obtain ⟨o, l2, rfl, hob, hl2⟩ := List.map_eq_cons_iff.1 hl1
  have : l2 = [] := List.map_eq_nil_iff.1 hl2
  subst this
  have hbsz : o.size = b.size := by rw [← hob]; rfl
  have hbid : o.id = b.id := by rw [← hob]; rfl
  obtain ⟨S', hev, hrS'⟩ := hrs.evictTail rfl
  have hhot : charge 0 (hotOf l) + b.size = hotBytes t := by
    rw [hotBytes_eq, hl, hotOf_append, charge_append, hotOf_cons, if_pos hbh, Spec.LIRS.hotOf_nil]
    simp only [charge]
    omega
  have hhl : (hotOf t.stack).length = (hotOf l).length + 1 := by
    rw [hl, hotOf_append, hotOf_cons, if_pos hbh]; simp
  have hb1 := hc.dropBottom hl hbh
  have hsn := hc.sn
  rw [hl] at hsn
  simp only [Spec.LIRS.ids, List.map_append, List.map_cons, List.map_nil] at hsn
  have hbl : b.id ∉ Spec.LIRS.ids l := fun hm => (List.nodup_append.1 hsn).2.2 _ hm _ (by simp) rfl
  have hbq : b.id ∉ t.queue.ids := hc.hotNotQueued hbm hbh
  have hoccs := h.occ
  have hnobs := h.nObj
  have hsim1 : Sim c g (({ s with S := S', lirsCount := sub64 s.lirsCount o.size } : State).count (-((o.size + s.base.objMd : Nat) : Int)) (-1)) { t with stack := l } := by
    refine ⟨h.csz, h.mdz, h.hl, h.ll, ⟨l0, hrS', hl0⟩, h.Q, h.N, ?_, h.hc, ?_, ?_, h.fail, h.adm, h.inGet⟩
    · rw [hotBytes_eq]
      show sub64 s.lirsCount o.size = charge 0 (hotOf l)
      rw [h.lc, hbsz, ← hhot, sub64_eq (by omega)]; omega
    · rw [hotBytes_eq, coldBytes_eq]
      show s.base.occ + -((o.size + s.base.objMd : Nat) : Int) = ((charge 0 (hotOf l) + charge 0 t.queue : Nat) : Int)
      rw [hoccs, ← hhot, coldBytes_eq, h.mdz, hbsz]; omega
    · show s.base.nObj + -1 = (((hotOf l).length + t.queue.length : Nat) : Int)
      rw [hnobs, hhl]; omega
  unfold evictLIR
  rw [hrs.tailObj rfl, Res.bind_ok, hev, Res.bind_ok]
  dsimp only
  generalize (({ s with S := S', lirsCount := sub64 s.lirsCount o.size } : State).count (-((o.size + s.base.objMd : Nat) : Int)) (-1)) = s1 at hsim1
  rw [if_pos (show o.size ≤ s1.hirsLimit by rw [hsim1.hl, hbsz]; exact hbc)]
  obtain ⟨lq, hrq, heq, _⟩ := hsim1.Q
  have hql : s1.Q.q.length = t.queue.length := by rw [hrq.q, List.length_map, ← cont_length lq, heq]
  obtain ⟨s2, e2, h2⟩ := hirLoop_sim hbc (t.queue.length + 1) _ _ hsim1 hb1 (Nat.lt_succ_self _)
  obtain ⟨m1, m2, m3, _⟩ := Spec.LIRS.makeRoom_spec (need := b.size) hbc (t.queue.length + 1) { t with stack := l } hb1 (Nat.lt_succ_self _)
  rw [Spec.LIRS.demote_concat hl hbc, hql, hbsz]
  rw [e2, Res.bind_ok]
  generalize Spec.LIRS.makeRoom c b.size (t.queue.length + 1) { t with stack := l } = u at h2 m1 m2 m3
  have hbu : b.id ∉ Spec.LIRS.ids u.stack := by rw [m2.ids]; exact hbl
  have hbuq : b.id ∉ u.queue.ids := fun hm => hbq ((m2.queue.sublist.map Prod.fst).subset hm)
  obtain ⟨lq2, hrq2, heq2, hin2⟩ := h2.Q
  have hnq : o.toReq.id ∉ lq2.map (·.id) := by
    rw [← cont_ids, heq2]
    show o.id ∉ _
    rw [hbid]; exact hbuq
  obtain ⟨Q', hins, hrQ'⟩ := hrq2.insert ⟨false, true⟩ o.toReq hnq (sizeOk (by show o.size < u32; rw [hbsz]; exact hs1))
  rw [hins, Res.bind_ok, Res.bind_ok]
  have hj := m1.join (x := (b.id, b.size)) ⟨hs0, hs1, hs2⟩ hbu hbuq m3
  refine prune_sim ?_ hj
  have hmod : o.size % u32 = b.size := by rw [hbsz]; exact Nat.mod_eq_of_lt hs1
  refine ⟨h2.csz, h2.mdz, h2.hl, h2.ll, h2.S, ⟨_, hrQ', ?_, ?_⟩, h2.N, h2.lc, ?_, ?_, ?_, h2.fail, h2.adm, h2.inGet⟩
  · rw [cont_cons, heq2]
    show (o.id, o.size % u32) :: _ = _
    rw [hmod, hbid]
  · intro y hy
    rcases List.mem_cons.1 hy with rfl | hy
    · rfl
    · exact hin2 y hy
  · show s2.hirsCount + b.size = _
    rw [h2.hc, coldBytes_eq, coldBytes_eq]
    simp only [charge]
    omega
  · show s2.base.occ + ((b.size + s.base.objMd : Nat) : Int) = _
    rw [h2.occ, h.mdz, hotBytes_eq, coldBytes_eq, hotBytes_eq, coldBytes_eq]
    simp only [charge]
    omega
  · show s2.base.nObj + 1 = _
    rw [h2.nObj]
    simp only [List.length_cons]
    omega

theorem peekS (h : Sim c g s t) {b : Block} (hb : b ∈ t.stack) : ∃ o, peek s.S b.id = some o ∧ blk o = b := by
  obtain ⟨ls, hr, he⟩ := h.S
  rw [← he] at hb
  obtain ⟨o, ho, rfl⟩ := List.mem_map.1 hb
  exact ⟨o, hr.lookup_mem ho, rfl⟩

theorem peekS_none (h : Sim c g s t) {i : ObjId} (hi : i ∉ Spec.LIRS.ids t.stack) : peek s.S i = none := by
  obtain ⟨ls, hr, he⟩ := h.S
  rw [← he, blk_ids] at hi
  exact hr.lookup_none.2 hi

theorem peekQ (h : Sim c g s t) {x : ObjId × Nat} (hx : x ∈ t.queue) : ∃ o, peek s.Q x.1 = some o ∧ (o.id, o.size) = x := by
  obtain ⟨lq, hr, he, _⟩ := h.Q
  rw [← he] at hx
  obtain ⟨o, ho, rfl⟩ := List.mem_map.1 hx
  exact ⟨o, hr.lookup_mem ho, rfl⟩

theorem peekQ_none (h : Sim c g s t) {i : ObjId} (hi : i ∉ t.queue.ids) : peek s.Q i = none := by
  obtain ⟨lq, hr, he, _⟩ := h.Q
  rw [← he, cont_ids] at hi
  exact hr.lookup_none.2 hi

theorem lirLoop_sim (hlim : c.cold ≤ c.hot) {need : Nat} (hn : 3 * need ≤ c.cold) {inS : Bool} {id : ObjId} : ∀ n s t, Sim c g s t → Core c sz E t →
    HotBottom t ∨ hotBytes t + need ≤ c.hot → t.stack.length < n → (inS = true → ∃ b, OnTop b t ∧ b.id = id ∧ b.size = need) →
    (inS = false → Queued c (id, need) t) → ∃ s', lirLoop inS id n s = .ok (need, s') ∧ Sim c g s' (coolDown c need n t) := by
  intro n
  induction n with
  | zero => intro s t _ _ _ h; omega
  | succ n ih =>
    intro s t h hc hb hlen hS hQ
    have hpk : ∃ o, peek (if inS then s.S else s.Q) id = some o ∧ o.size = need := by
      cases inS with
      | true =>
        obtain ⟨b, ht, e1, e2⟩ := hS rfl
        obtain ⟨o, ho, hob⟩ := peekS h (List.mem_of_mem_head? ht.1)
        exact ⟨o, by rw [← e1]; exact ho, by rw [← e2, ← hob]; rfl⟩
      | false =>
        obtain ⟨⟨D, R, e, _⟩, _⟩ := hQ rfl
        obtain ⟨o, ho, hox⟩ := peekQ h (x := (id, need)) (by rw [e]; simp)
        exact ⟨o, ho, congrArg Prod.snd hox⟩
    obtain ⟨o, ho, hos⟩ := hpk
    unfold lirLoop coolDown
    rw [ho]
    simp only
    rw [hos, h.lc, h.ll]
    by_cases hgt : hotBytes t + need > c.hot
    · rw [if_pos hgt, if_pos hgt]
      have hb' : HotBottom t := hb.resolve_right (by omega)
      obtain ⟨b, r1, r2, r3, r4, r5⟩ := hc.round hlim hn hgt hb'
      obtain ⟨s1, e1, h1⟩ := evictLIR_sim h hc hb'
      rw [e1, Res.bind_ok]
      have := r3.len
      refine ih s1 _ h1 r1 (Or.inl r2) (by omega) (fun hh => ?_) (fun hh => r5 _ rfl (hQ hh))
      obtain ⟨d, hd, e⟩ := hS hh
      exact ⟨d, r4 d hd, e⟩
    · rw [if_neg hgt, if_neg hgt]
      exact ⟨s, rfl, h⟩

/-- another stack with the same hot blocks -/
theorem Sim.withStack (h : Sim c g s t) {S' : QState Meta} {st : List Block} (hS : ∃ l, Rep c.hot 0 S' l ∧ l.map blk = st) (hp : (hotOf st).Perm (hotOf t.stack)) :
    Sim c g { s with S := S' } { t with stack := st } := by
  have hb : hotBytes { t with stack := st } = hotBytes t := by
    rw [hotBytes_eq, hotBytes_eq]; exact charge_perm hp
  refine ⟨h.csz, h.mdz, h.hl, h.ll, hS, h.Q, h.N, h.lc.trans hb.symm, h.hc, ?_, ?_, h.fail, h.adm, h.inGet⟩
  · rw [hb]; exact h.occ
  · show s.base.nObj = (((hotOf st).length + t.queue.length : Nat) : Int)
    rw [hp.length_eq]; exact h.nObj

theorem Sim.withQueue (h : Sim c g s t) {Q' : QState Meta} {q : Contents} (hQ : ∃ l, Rep c.cold 0 Q' l ∧ cont l = q ∧ ∀ o ∈ l, o.mt.inCache = true)
    (hp : q.Perm t.queue) : Sim c g { s with Q := Q' } { t with queue := q } := by
  have hb : coldBytes { t with queue := q } = coldBytes t := by
    rw [coldBytes_eq, coldBytes_eq]; exact charge_perm hp
  refine ⟨h.csz, h.mdz, h.hl, h.ll, h.S, hQ, h.N, h.lc, h.hc.trans hb.symm, ?_, ?_, h.fail, h.adm, h.inGet⟩
  · rw [hb]; exact h.occ
  · show s.base.nObj = (((hotOf t.stack).length + q.length : Nat) : Int)
    rw [hp.length_eq]; exact h.nObj

theorem findS_hit (h : Sim c g s t) (hn : (Spec.LIRS.ids t.stack).Nodup) {b : Block} (hb : b ∈ t.stack) {r : Req} (hid : b.id = r.id) :
    ∃ S' o, s.S.findLRU r true = .ok (some o, S') ∧ blk o = b ∧ ∃ l, Rep c.hot 0 S' l ∧ l.map blk = toTop b t.stack := by
  obtain ⟨ls, hr, he⟩ := h.S
  have hm : r.id ∈ ls.map (·.id) := by
    rw [← blk_ids, he]
    exact List.mem_map.2 ⟨b, hb, hid⟩
  obtain ⟨S', o, h1, h2, h3, h4⟩ := hr.findLRU_hit hm
  have hob : blk o = b := Spec.LIRS.eq_of_ids hn (by rw [← he]; exact List.mem_map_of_mem h2) hb (h3.trans hid.symm)
  refine ⟨S', touch r o, h1, hob, _, h4, ?_⟩
  rw [List.map_cons]
  unfold toTop
  rw [show blk (touch r o) = b from hob, ← he, List.filter_map, delL, hid]
  rfl

theorem findQ_hit (h : Sim c g s t) (hn : t.queue.ids.Nodup) {x : ObjId × Nat} (hx : x ∈ t.queue) {r : Req} (hid : x.1 = r.id) :
    ∃ Q' o, s.Q.findLRU r true = .ok (some o, Q') ∧ (o.id, o.size) = x ∧ o.mt.inCache = true ∧
      ∃ l, Rep c.cold 0 Q' l ∧ cont l = x :: t.queue.filter (fun y => y.1 ≠ r.id) ∧ ∀ o ∈ l, o.mt.inCache = true := by
  obtain ⟨lq, hr, he, hin⟩ := h.Q
  have hm : r.id ∈ lq.map (·.id) := by
    rw [← cont_ids, he]
    exact List.mem_map.2 ⟨x, hx, hid⟩
  obtain ⟨Q', o, h1, h2, h3, h4⟩ := hr.findLRU_hit hm
  have hox : (o.id, o.size) = x := by
    have hm : (o.id, o.size) ∈ t.queue := by rw [← he]; exact List.mem_map.2 ⟨o, h2, rfl⟩
    exact List.inj_on_of_nodup_map hn hm hx (h3.trans hid.symm)
  refine ⟨Q', touch r o, h1, hox, hin o h2, _, h4, ?_, ?_⟩
  · rw [cont_cons, delL_cont, he]
    exact congrArg (· :: _) hox
  · intro y hy
    rcases List.mem_cons.1 hy with rfl | hy
    · exact hin o h2
    · exact hin y (List.mem_of_mem_filter hy)

theorem findS_miss (h : Sim c g s t) {r : Req} (u : Bool) (hi : r.id ∉ Spec.LIRS.ids t.stack) : s.S.findLRU r u = .ok (none, s.S) := by
  obtain ⟨ls, hr, he⟩ := h.S
  rw [← he, blk_ids] at hi
  exact hr.findLRU_miss u hi

theorem findQ_miss (h : Sim c g s t) {r : Req} (u : Bool) (hi : r.id ∉ t.queue.ids) : s.Q.findLRU r u = .ok (none, s.Q) := by
  obtain ⟨lq, hr, he, _⟩ := h.Q
  rw [← he, cont_ids] at hi
  exact hr.findLRU_miss u hi

/-- a block of the stack becomes hot -/
theorem heat_sim (h : Sim c g s t) (hc : Core c sz E t) {b : Block} (ht : OnTop b t) (f : Meta → Meta) (hf : f ⟨b.hot, b.resident⟩ = ⟨true, true⟩)
    {N' : QState Meta} {gn : List ObjId} (hN : ∃ l, Rep c.cache 0 N' l ∧ l.map (·.id) = gn) (k : Nat) :
    Sim c g (({ s with S := s.S.modify b.id (fun y => { y with mt := f y.mt }), NH := N', nonresident := k, lirsCount := s.lirsCount + b.size } : State).count (b.size : Int) 1)
      { t with stack := heat b.id t.stack, gone := gn } := by
  obtain ⟨ls, hr, he⟩ := h.S
  have hbs := List.mem_of_mem_head? ht.1
  obtain ⟨l, hl⟩ : ∃ l, t.stack = b :: l := by
    cases hs : t.stack with
    | nil => rw [hs] at hbs; cases hbs
    | cons d l => have := ht.1; rw [hs] at this; exact ⟨l, by injection this with e; rw [e]⟩
  have hhot : hotOf (heat b.id t.stack) = (b.id, b.size) :: hotOf t.stack := by
    have hsn := hc.sn
    rw [hl] at hsn ⊢
    exact Spec.LIRS.hotOf_heat hsn ht.2.1
  have hoccs := h.occ
  have hnobs := h.nObj
  have hlcs := h.lc
  refine ⟨h.csz, h.mdz, h.hl, h.ll, ⟨_, hr.modify b.id (fun y => { y with mt := f y.mt }) (fun _ => rfl) (fun _ => rfl), ?_⟩, h.Q, hN, ?_, h.hc, ?_, ?_, h.fail, h.adm, h.inGet⟩
  · unfold heat
    rw [← he, modL, List.map_map, List.map_map]
    refine List.map_congr_left fun y hy => ?_
    simp only [Function.comp]
    by_cases e : y.id = b.id
    · rw [if_pos e, if_pos (show (blk y).id = b.id from e)]
      have hyb : blk y = b := Spec.LIRS.eq_of_ids hc.sn (by rw [← he]; exact List.mem_map_of_mem hy) hbs e
      have : f y.mt = ⟨true, true⟩ := by
        rw [← hf, ← hyb]
        rfl
      simp only [blk, this]
    · rw [if_neg e, if_neg (show ¬ (blk y).id = b.id from e)]
  · rw [hotBytes_eq]
    show s.lirsCount + b.size = charge 0 (hotOf (heat b.id t.stack))
    rw [hhot, hlcs, hotBytes_eq]
    simp only [charge]; omega
  · rw [hotBytes_eq]
    show s.base.occ + (b.size : Int) = ((charge 0 (hotOf (heat b.id t.stack)) + coldBytes t : Nat) : Int)
    rw [hhot, hoccs, hotBytes_eq]
    simp only [charge]; omega
  · show s.base.nObj + 1 = (((hotOf (heat b.id t.stack)).length + t.queue.length : Nat) : Int)
    rw [hhot, hnobs]
    simp only [List.length_cons]; omega

theorem lenS (h : Sim c g s t) : s.S.q.length = t.stack.length := by
  obtain ⟨ls, hr, he⟩ := h.S
  rw [hr.q, ← he, List.length_map, List.length_map]

theorem lenQ (h : Sim c g s t) : s.Q.q.length = t.queue.length := by
  obtain ⟨lq, hr, he, _⟩ := h.Q
  rw [hr.q, List.length_map, ← cont_length lq, he]

theorem lenN (h : Sim c g s t) : s.NH.q.length = t.gone.length := by
  obtain ⟨ln, hr, he⟩ := h.N
  rw [hr.q, ← he]

theorem filter_filter_self (i : ObjId) (q : Contents) : (q.filter (fun y => y.1 ≠ i)).filter (fun y => y.1 ≠ i) = q.filter (fun y => y.1 ≠ i) := by
  rw [List.filter_filter]
  congr 1
  funext y
  simp

theorem find0_sim (hlim : c.cold ≤ c.hot) (h : Sim c g s t) (hi : Spec.LIRS.Inv c sz t) (r : Req) :
    ∃ s', find0 s r true = .ok ((look c t r).1, s') ∧ Sim c g s' (look c t r).2 := by
  unfold find0 look
  cases hf : t.stack.find? (fun b => b.id = r.id) with
  | some b =>
    obtain ⟨hb, hid⟩ := Spec.LIRS.find_block hf
    have hp := Spec.LIRS.toTop_perm hi.core.sn hb
    obtain ⟨S', o, e1, hob, hS'⟩ := findS_hit h hi.core.sn hb hid
    have h1 := h.withStack hS' (Spec.LIRS.hotOf_perm hp)
    rw [e1, Res.bind_ok]
    simp only
    by_cases hh : b.hot = true
    · have hnq : r.id ∉ t.queue.ids := by rw [← hid]; exact hi.core.hotNotQueued hb hh
      rw [findQ_miss h true hnq, Res.bind_ok]
      simp only
      rw [if_pos (show o.mt.isLIR = true by rw [← hob] at hh; exact hh), if_pos hh]
      obtain ⟨s', e2, h2⟩ := prune_sim h1 (hi.core.reorder hp)
      have e2' : prune { s with S := S', Q := s.Q } = .ok s' := e2
      rw [e2', Res.bind_ok]
      exact ⟨s', rfl, h2⟩
    · have hc : b.hot = false := by simpa using hh
      have hno : ¬ o.mt.isLIR = true := by rw [← hob] at hh; exact hh
      by_cases hr : b.resident = true
      · have hbq : b.id ∈ t.queue.ids := (hi.core.cold b hb (fun f => f)).2 ⟨hc, hr⟩
        obtain ⟨x, hx, hxb⟩ := List.mem_map.1 hbq
        have hxs : x.2 = b.size := by
          rw [(hi.core.szQ x hx).1, (hi.core.szS b hb).1, hxb]
        obtain ⟨Q', o', e2, hox, hoin, lq', hrQ', heQ', hinQ'⟩ := findQ_hit h hi.core.qn hx (hxb.trans hid)
        rw [e2, Res.bind_ok]
        simp only
        rw [if_neg hno, if_pos (show o.mt.inCache = true by rw [← hob] at hr; exact hr), if_neg hh, if_pos hr]
        have ho1 : o'.id = r.id := (congrArg Prod.fst hox).trans (hxb.trans hid)
        have ho2 : o'.size = b.size := (congrArg Prod.snd hox).trans hxs
        have hoid : o.id = b.id := by rw [← hob]; rfl
        obtain ⟨q1, q2, q3, _⟩ := hi.leaveQueue hb hc hr
        obtain ⟨Q'', hrem, hrQ''⟩ := hrQ'.remove_hit (id := o'.id) (by rw [← cont_ids, heQ', ho1]; simp [Contents.ids, hxb, hid])
        have hqp := Spec.LIRS.filter_queue_perm hi.core.qn hx
        have hcq : coldBytes t = b.size + charge 0 (t.queue.filter (fun y => y.1 ≠ b.id)) := by
          rw [coldBytes_eq, ← charge_perm hqp, hxb]
          simp only [charge, hxs]; omega
        have hlq : t.queue.length = (t.queue.filter (fun y => y.1 ≠ b.id)).length + 1 := by
          rw [← hqp.length_eq, hxb]; simp
        have hoccs := h1.occ
        have hnobs := h1.nObj
        have hhcs := h.hc
        have hL : Sim c g (({ s with S := S', Q := Q'', hirsCount := sub64 s.hirsCount o'.size } : State).count (-(o'.size : Int)) (-1)) (Spec.LIRS.leaveQueue b t) := by
          refine ⟨h1.csz, h1.mdz, h1.hl, h1.ll, h1.S, ⟨_, hrQ'', ?_, ?_⟩, h1.N, h1.lc, ?_, ?_, ?_, h1.fail, h1.adm, h1.inGet⟩
          · rw [delL_cont, heQ', ho1, List.filter_cons_of_neg (by simp [hxb, hid]), filter_filter_self, ← hid]
            rfl
          · intro y hy
            exact hinQ' y (List.mem_of_mem_filter hy)
          · rw [coldBytes_eq]
            show sub64 s.hirsCount o'.size = charge 0 (t.queue.filter (fun y => y.1 ≠ b.id))
            rw [hhcs, hcq, ho2, sub64_eq (by omega)]; omega
          · rw [coldBytes_eq]
            show s.base.occ + -(o'.size : Int) = ((hotBytes { t with stack := toTop b t.stack } + charge 0 (t.queue.filter (fun y => y.1 ≠ b.id)) : Nat) : Int)
            have hoccs' : s.base.occ = ((hotBytes { t with stack := toTop b t.stack } + coldBytes t : Nat) : Int) := hoccs
            rw [hoccs', hcq, ho2]; omega
          · show s.base.nObj + -1 = (((hotOf (toTop b t.stack)).length + (t.queue.filter (fun y => y.1 ≠ b.id)).length : Nat) : Int)
            have hnobs' : s.base.nObj = (((hotOf (toTop b t.stack)).length + t.queue.length : Nat) : Int) := hnobs
            rw [hnobs', hlq]; omega
        unfold hitInS
        simp only
        rw [hrem, Res.bind_ok, Res.bind_ok, hoid]
        have hlen : (Spec.LIRS.leaveQueue b t).stack.length = t.stack.length := hp.length_eq
        obtain ⟨s2, e3, h3⟩ := lirLoop_sim hlim (hi.core.szS b hb).2.2 (inS := true) (id := b.id) (t.stack.length + 1) _ _ hL q1 (Or.inl q2) (by omega)
          (fun _ => ⟨b, q3, rfl, rfl⟩) (fun hh => (by cases hh))
        obtain ⟨k1, k2, k3, _⟩ := Core.coolDown hlim (hi.core.szS b hb).2.2 (t.stack.length + 1) (Spec.LIRS.leaveQueue b t) q1 (Or.inl q2) (by omega)
        have hls := lenS hL
        rw [hlen] at hls
        simp only at hls ⊢
        rw [hls, e3, Res.bind_ok, Res.bind_ok]
        refine ⟨_, rfl, ?_⟩
        obtain ⟨ln, hrn, hen⟩ := h3.N
        have := heat_sim h3 k1 (k3 b q3) (fun m => { m with isLIR := true }) (by rw [hr]) ⟨ln, hrn, hen⟩ s2.nonresident
        rw [← hid]
        exact this
      · have hnq : r.id ∉ t.queue.ids := by
          rw [← hid]
          intro hm
          exact hr ((hi.core.cold b hb (fun f => f)).1 hm).2
        rw [findQ_miss h true hnq, Res.bind_ok]
        simp only
        rw [if_neg hno, if_neg (show ¬ o.mt.inCache = true by rw [← hob] at hr; exact hr), if_neg hh, if_neg hr]
        exact ⟨_, rfl, h1⟩
  | none =>
    have hns := Spec.LIRS.find_none.1 hf
    rw [findS_miss h true hns, Res.bind_ok]
    simp only
    cases hq : t.queue.find? (fun x => x.1 = r.id) with
    | some x =>
      have hx : x ∈ t.queue := List.mem_of_find?_eq_some hq
      have hid : x.1 = r.id := by simpa using List.find?_some hq
      obtain ⟨Q', o, e2, hox, hoin, hQ'⟩ := findQ_hit h hi.core.qn hx hid
      have hqp := Spec.LIRS.filter_queue_perm hi.core.qn hx
      rw [hid] at hqp
      have h1 := h.withQueue hQ' hqp
      rw [e2, Res.bind_ok]
      simp only
      rw [if_pos hoin]
      have hbot : HotBottom t := by
        rcases hi.bottom with h' | ⟨_, h'⟩
        · exact h'
        · rw [h'] at hx; cases hx
      have hmem : ∀ y, y ∈ (x :: t.queue.filter (fun y => y.1 ≠ r.id)).map Prod.fst ↔ y ∈ t.queue.ids := fun y => (hqp.map Prod.fst).mem_iff
      have hc1 : Core c sz noneE { t with queue := x :: t.queue.filter (fun y => y.1 ≠ r.id) } := by
        refine ⟨hi.core.sn, (hqp.map _).nodup_iff.2 hi.core.qn, hi.core.gn, hi.core.hr, fun _ _ hE => hE.elim, ?_, hi.core.gone, hi.core.szS,
          fun y hy => hi.core.szQ y (hqp.subset hy), hi.core.hotLe, ?_⟩
        · intro b hb hE
          rw [← hi.core.cold b hb hE]
          exact hmem b.id
        · have := hi.core.coldLe
          rw [coldBytes_eq] at this ⊢
          show charge 0 (x :: t.queue.filter (fun y => y.1 ≠ r.id)) ≤ _
          rw [charge_perm hqp]; exact this
      have hns' : x.1 ∉ Spec.LIRS.ids t.stack := by rw [hid]; exact hns
      have hQ : Queued c x { t with queue := x :: t.queue.filter (fun y => y.1 ≠ r.id) } :=
        ⟨⟨[], t.queue.filter (fun y => y.1 ≠ r.id), rfl, by simp only [charge, Nat.zero_add]; exact hc1.hotLe⟩, hns'⟩
      have hsz := hi.core.szQ x hx
      obtain ⟨k1, k2, _, k3⟩ := Core.coolDown hlim hsz.2.2 (t.stack.length + 1) { t with queue := x :: t.queue.filter (fun y => y.1 ≠ r.id) } hc1 (Or.inl hbot)
        (Nat.lt_succ_self _)
      have ho1 : o.id = x.1 := congrArg Prod.fst hox
      have ho2 : o.size = x.2 := congrArg Prod.snd hox
      obtain ⟨s2, e3, h3⟩ := lirLoop_sim hlim hsz.2.2 (inS := false) (id := x.1) (t.stack.length + 1) _ _ h1 hc1 (Or.inl hbot) (Nat.lt_succ_self _)
        (fun hh => (by cases hh)) (fun _ => hQ)
      unfold hitInQ
      have hls : s.S.q.length = t.stack.length := lenS h
      have e3' : lirLoop false o.toReq.id (s.S.q.length + 1) { s with S := s.S, Q := Q' } = .ok (x.2, s2) := by
        rw [hls, show o.toReq.id = x.1 from ho1]; exact e3
      rw [e3', Res.bind_ok]
      have kq := (k3 x rfl hQ).2
      generalize coolDown c x.2 (t.stack.length + 1) { t with queue := x :: t.queue.filter (fun y => y.1 ≠ r.id) } = u at h3 k1 k2 kq
      obtain ⟨l2, hr2, he2⟩ := h3.S
      obtain ⟨S2, hins, hrS2⟩ := hr2.insert ⟨false, true⟩ o.toReq (by rw [← blk_ids, he2, show o.toReq.id = x.1 from ho1]; exact kq)
        (sizeOk (by show o.size < u32; rw [ho2]; exact hsz.2.1))
      simp only
      rw [hins, Res.bind_ok, Res.bind_ok]
      refine ⟨_, rfl, h3.withStack ⟨_, hrS2, ?_⟩ ?_⟩
      · rw [List.map_cons, he2]
        congr 1
        have hmod : o.size % u32 = x.2 := by rw [ho2]; exact Nat.mod_eq_of_lt hsz.2.1
        show (⟨o.id, o.size % u32, false, true⟩ : Block) = _
        rw [hmod, ho1]
      · rw [hotOf_cons]; exact List.Perm.refl _
    | none =>
      have hnq : r.id ∉ t.queue.ids := by
        rw [List.find?_eq_none] at hq
        intro hm
        obtain ⟨x, hx, e⟩ := List.mem_map.1 hm
        exact absurd (decide_eq_true e) (hq x hx)
      rw [findQ_miss h true hnq, Res.bind_ok]
      exact ⟨_, rfl, h⟩

theorem Sim.withAdm (h : Sim c g s t) (a : Adm) : Sim c g { s with base := { s.base with adm := a } } { t with adm := a } :=
  ⟨h.csz, h.mdz, h.hl, h.ll, h.S, h.Q, h.N, h.lc, h.hc, h.occ, h.nObj, h.fail, rfl, h.inGet⟩

/-- What `LIRS_can_insert`, and `LIRS_insert` if it is called, do together. -/
theorem admit_sim (hlim : c.cold ≤ c.hot) (hcap : c.hot + c.cold = c.cache) (h : Sim c g s t) (hi : Spec.LIRS.Inv c sz t) {r : Req} (hr : Spec.LIRS.Third c sz r)
    (hout : r.id ∉ (Spec.LIRS.contents t).ids) (htop : ∀ b ∈ t.stack, b.id = r.id → t.stack.head? = some b) :
    (∃ s', canInsert0 s r = .ok (false, s') ∧ Sim c g s' (admit c t r)) ∨
    (∃ s1 s', canInsert0 s r = .ok (true, s1) ∧ s1.base.occ + (r.size : Int) ≤ (c.cache : Int) ∧ s1.base.objMd = 0 ∧ s1.base.cacheSize = c.cache ∧ s1.fail = none ∧
      insert0 s1 r = .ok s' ∧ Sim c g s' (admit c t r)) := by
  unfold canInsert0
  rw [canInsertDefault_eq]
  have h0 := h.withAdm (t.adm.admit r).2
  have hi0 := hi.withAdm (t.adm.admit r).2
  have hadm : admitsBase s.base r = ((t.adm.admit r).1 && decide (r.size ≤ c.cache)) := by
    unfold admitsBase
    rw [h.adm, h.mdz, h.csz]; rfl
  dsimp only
  rw [hadm, h.adm]
  unfold admit
  by_cases hrej : (t.adm.admit r).1 = false ∨ r.size > c.cache
  · have hb : ((t.adm.admit r).1 && decide (r.size ≤ c.cache)) = false := by
      rcases hrej with e | e
      · rw [e]; rfl
      · rw [decide_eq_false (by omega)]; simp
    rw [hb, if_pos rfl, if_pos hrej]
    exact Or.inl ⟨_, rfl, h0⟩
  · have ha1 : (t.adm.admit r).1 = true := by
      cases e : (t.adm.admit r).1 with
      | true => rfl
      | false => exact absurd (Or.inl e) hrej
    have ha2 : r.size ≤ c.cache := by
      by_contra e
      exact hrej (Or.inr (by omega))
    have hb : ((t.adm.admit r).1 && decide (r.size ≤ c.cache)) = true := by rw [ha1, decide_eq_true ha2]; rfl
    rw [hb, if_neg (by simp), if_neg hrej]
    generalize hs0 : ({ s with base := { s.base with adm := (t.adm.admit r).2 } } : State) = s0 at h0
    generalize ht0 : ({ t with adm := (t.adm.admit r).2 } : Spec.LIRS.State) = t0 at h0 hi0
    have hout0 : r.id ∉ (Spec.LIRS.contents t0).ids := by rw [← ht0]; exact hout
    have htop0 : ∀ b ∈ t0.stack, b.id = r.id → t0.stack.head? = some b := by rw [← ht0]; exact htop
    clear hs0 ht0 hadm hb hi h hout htop
    unfold canInsert1 Spec.LIRS.bring
    simp only
    cases hf : t0.stack.find? (fun b => b.id = r.id) with
    | some b =>
      obtain ⟨hbm, hid⟩ := Spec.LIRS.find_block hf
      have hnr : b.resident = false := by
        cases e : b.resident with
        | false => rfl
        | true => exact absurd ((Spec.LIRS.mem_contents hi0.core _).2 (Or.inl ⟨b, hbm, hid, e⟩)) hout0
      have hc : b.hot = false := by
        cases e : b.hot with
        | false => rfl
        | true => have := hi0.core.hr b hbm e; rw [hnr] at this; cases this
      have hnq : b.id ∉ t0.queue.ids := fun hm => hout0 ((Spec.LIRS.mem_contents hi0.core _).2 (Or.inr (by rw [← hid]; exact hm)))
      have hsz := hi0.core.szS b hbm
      have hbr : b.size = r.size := by rw [hsz.1, hid, hr.1]
      have ht : OnTop b t0 := ⟨htop0 b hbm hid, hc, hnq⟩
      have hbot : HotBottom t0 := hi0.bottom' hbm
      obtain ⟨k1, k2, k3, _⟩ := Core.coolDown hlim hsz.2.2 (t0.stack.length + 1) t0 hi0.core (Or.inl hbot) (Nat.lt_succ_self _)
      have kt := k3 b ht
      obtain ⟨o, hpk, hob⟩ := peekS h0 hbm
      obtain ⟨s1, e1, h1⟩ := lirLoop_sim hlim hsz.2.2 (inS := true) (id := b.id) (t0.stack.length + 1) _ _ h0 hi0.core (Or.inl hbot) (Nat.lt_succ_self _)
        (fun _ => ⟨b, ht, rfl, rfl⟩) (fun hh => (by cases hh))
      rw [← hid, hpk]
      simp only
      have ho1 : o.mt.isLIR = false := by rw [← hob] at hc; exact hc
      have ho2 : o.mt.inCache = false := by rw [← hob] at hnr; exact hnr
      have hoid : o.id = b.id := by rw [← hob]; rfl
      rw [if_pos ⟨ho1, ho2⟩, lenS h0, hoid, e1, Res.bind_ok]
      generalize coolDown c b.size (t0.stack.length + 1) t0 = u at h1 k1 k2 kt
      have hbu := List.mem_of_mem_head? kt.1
      obtain ⟨ln, hrn, hen⟩ := h1.N
      have hg : b.id ∈ ln.map (·.id) := by
        rw [hen]
        exact (k1.gone _).2 ⟨b, hbu, rfl, hnr⟩
      obtain ⟨N', hrem, hrN'⟩ := hrn.remove_hit hg
      simp only
      rw [hrem, Res.bind_ok]
      simp only [if_true]
      refine Or.inr ⟨_, (({ s1 with S := s1.S.modify b.id (fun y => { y with mt := ⟨true, true⟩ }), NH := N', nonresident := sub64 s1.nonresident b.size, lirsCount := s1.lirsCount + b.size } : State).count (b.size : Int) 1), rfl, ?_, h1.mdz, h1.csz, h1.fail, ?_, ?_⟩
      · show s1.base.occ + _ ≤ _
        rw [h1.occ, ← hbr, ← hcap]
        have := k2.fits
        have := k1.coldLe
        omega
      · unfold insert0
        obtain ⟨o2, hpk2, hob2⟩ := peekS h1 hbu
        have hp2 : peek ({ s1 with NH := N', nonresident := sub64 s1.nonresident b.size } : State).S r.id = some o2 := by rw [← hid]; exact hpk2
        rw [hp2]
        simp only
        have ho21 : o2.mt.isLIR = false := by rw [← hob2] at hc; exact hc
        have ho22 : o2.mt.inCache = false := by rw [← hob2] at hnr; exact hnr
        have hoid2 : o2.id = b.id := by rw [← hob2]; rfl
        have hosz2 : o2.size = b.size := by rw [← hob2]; rfl
        rw [if_pos ⟨ho21, ho22⟩, hoid2, hosz2, h1.mdz]
        rfl
      · have := heat_sim h1 k1 kt (fun _ => ⟨true, true⟩) rfl ⟨_, hrN', rfl⟩ (sub64 s1.nonresident b.size)
        rw [delL_ids, hen] at this
        exact this
    | none =>
      have hns := Spec.LIRS.find_none.1 hf
      have hnq : r.id ∉ t0.queue.ids := fun hm => hout0 ((Spec.LIRS.mem_contents hi0.core _).2 (Or.inr hm))
      have hmod : r.size % u32 = r.size := Nat.mod_eq_of_lt hr.2.1
      rw [peekS_none h0 hns, peekQ_none h0 hnq]
      simp only
      rw [h0.ll, h0.hl, h0.lc, h0.hc]
      by_cases hbig : r.size > c.hot ∨ r.size > c.cold
      · rw [if_pos hbig, if_pos hbig]
        exact Or.inl ⟨_, rfl, h0⟩
      · rw [if_neg hbig, if_neg hbig]
        have hcold : r.size ≤ c.cold := by omega
        have hle := hi0.core.hotLe
        have hle' := hi0.core.coldLe
        by_cases hroom : hotBytes t0 + r.size ≤ c.hot
        · rw [if_neg (by omega), if_pos hroom]
          obtain ⟨ls, hrs, hes⟩ := h0.S
          obtain ⟨S', hins, hrS'⟩ := hrs.insert ⟨true, true⟩ r (by rw [← blk_ids, hes]; exact hns) (sizeOk hr.2.1)
          have hhot : hotOf (⟨r.id, r.size, true, true⟩ :: t0.stack) = (r.id, r.size) :: hotOf t0.stack := by rw [hotOf_cons]; rfl
          have hoccs := h0.occ
          have hnobs := h0.nObj
          refine Or.inr ⟨_, (({ s0 with S := S', lirsCount := s0.lirsCount + r.size % u32 } : State).count ((r.size % u32 + s0.base.objMd : Nat) : Int) 1), rfl, ?_, h0.mdz, h0.csz, h0.fail, ?_, ?_⟩
          · rw [h0.occ, ← hcap]; omega
          · unfold insert0
            rw [peekS_none h0 hns, peekQ_none h0 hnq]
            simp only
            rw [h0.lc, h0.ll, if_pos hroom, hins, Res.bind_ok, ← h0.lc]
          · refine ⟨h0.csz, h0.mdz, h0.hl, h0.ll, ⟨_, hrS', ?_⟩, h0.Q, h0.N, ?_, h0.hc, ?_, ?_, h0.fail, h0.adm, h0.inGet⟩
            · rw [List.map_cons, hes]
              show (⟨r.id, r.size % u32, true, true⟩ : Block) :: _ = _
              rw [hmod]
            · rw [hotBytes_eq]
              show s0.lirsCount + r.size % u32 = charge 0 (hotOf (⟨r.id, r.size, true, true⟩ :: t0.stack))
              rw [hhot, hmod, h0.lc, hotBytes_eq]
              simp only [charge]; omega
            · rw [hotBytes_eq]
              show s0.base.occ + ((r.size % u32 + s0.base.objMd : Nat) : Int) = ((charge 0 (hotOf (⟨r.id, r.size, true, true⟩ :: t0.stack)) + coldBytes t0 : Nat) : Int)
              rw [hhot, hmod, hoccs, h0.mdz, hotBytes_eq]
              simp only [charge]; omega
            · show s0.base.nObj + 1 = (((hotOf (⟨r.id, r.size, true, true⟩ :: t0.stack)).length + t0.queue.length : Nat) : Int)
              rw [hhot, hnobs]
              simp only [List.length_cons]; omega
        · rw [if_neg hroom]
          obtain ⟨k1, k2, k3, _⟩ := Spec.LIRS.makeRoom_spec (need := r.size) hcold (t0.queue.length + 1) t0 hi0.core (Nat.lt_succ_self _)
          obtain ⟨s1, e1, h1⟩ := hirLoop_sim hcold (t0.queue.length + 1) _ _ h0 hi0.core (Nat.lt_succ_self _)
          have hcan : (if hotBytes t0 + r.size > c.hot ∧ coldBytes t0 + r.size > c.cold then
              hirLoop r.size (s0.Q.q.length + 1) s0 >>= fun s' => (Except.ok (true, s') : Res (Bool × State)) else .ok (true, s0)) = .ok (true, s1) := by
            by_cases hgt : coldBytes t0 + r.size > c.cold
            · rw [if_pos ⟨by omega, hgt⟩, lenQ h0, e1, Res.bind_ok]
            · rw [if_neg (fun hh => hgt hh.2)]
              unfold hirLoop at e1
              rw [h0.hc, h0.hl, if_neg hgt] at e1
              injection e1 with e1
              rw [e1]
          rw [hcan]
          have khot : hotBytes (Spec.LIRS.makeRoom c r.size (t0.queue.length + 1) t0) = hotBytes t0 := by
            rw [hotBytes_eq, hotBytes_eq, k2.hot]
          generalize Spec.LIRS.makeRoom c r.size (t0.queue.length + 1) t0 = u at h1 k1 k2 k3 khot
          have hnu : r.id ∉ Spec.LIRS.ids u.stack := by rw [k2.ids]; exact hns
          have hnuq : r.id ∉ u.queue.ids := fun hm => hnq ((k2.queue.sublist.map Prod.fst).subset hm)
          obtain ⟨ls, hrs, hes⟩ := h1.S
          obtain ⟨lq, hrq, heq, hinq⟩ := h1.Q
          obtain ⟨S', hins, hrS'⟩ := hrs.insert ⟨false, true⟩ r (by rw [← blk_ids, hes]; exact hnu) (sizeOk hr.2.1)
          obtain ⟨Q', hinsQ, hrQ'⟩ := hrq.insert ⟨false, true⟩ r (by rw [← cont_ids, heq]; exact hnuq) (sizeOk hr.2.1)
          have hhot : hotOf (⟨r.id, r.size, false, true⟩ :: u.stack) = hotOf u.stack := by rw [hotOf_cons]; rfl
          have hoccs := h1.occ
          have hnobs := h1.nObj
          refine Or.inr ⟨s1, (({ s1 with S := S', Q := Q', hirsCount := s1.hirsCount + r.size % u32 } : State).count ((r.size % u32 + s1.base.objMd : Nat) : Int) 1), rfl, ?_,
            h1.mdz, h1.csz, h1.fail, ?_, ?_⟩
          · rw [h1.occ, ← hcap, khot]; omega
          · unfold insert0
            rw [peekS_none h1 hnu, peekQ_none h1 hnuq]
            simp only
            rw [if_neg (show ¬ (s1.lirsCount + r.size ≤ s1.lirsLimit) by rw [h1.lc, h1.ll, khot]; exact hroom)]
            unfold insertHIR
            rw [hins, Res.bind_ok, hinsQ, Res.bind_ok]
          · refine ⟨h1.csz, h1.mdz, h1.hl, h1.ll, ⟨_, hrS', ?_⟩, ⟨_, hrQ', ?_, ?_⟩, h1.N, ?_, ?_, ?_, ?_, h1.fail, h1.adm, h1.inGet⟩
            · rw [List.map_cons, hes]
              show (⟨r.id, r.size % u32, false, true⟩ : Block) :: _ = _
              rw [hmod]
            · rw [cont_cons, heq]
              show (r.id, r.size % u32) :: _ = _
              rw [hmod]
            · intro y hy
              rcases List.mem_cons.1 hy with rfl | hy
              · rfl
              · exact hinq y hy
            · rw [hotBytes_eq]
              show s1.lirsCount = charge 0 (hotOf (⟨r.id, r.size, false, true⟩ :: u.stack))
              rw [hhot, ← hotBytes_eq]; exact h1.lc
            · rw [coldBytes_eq]
              show s1.hirsCount + r.size % u32 = charge 0 ((r.id, r.size) :: u.queue)
              rw [hmod, h1.hc, coldBytes_eq]
              simp only [charge]; omega
            · rw [hotBytes_eq, coldBytes_eq]
              show s1.base.occ + ((r.size % u32 + s1.base.objMd : Nat) : Int) = ((charge 0 (hotOf (⟨r.id, r.size, false, true⟩ :: u.stack)) + charge 0 ((r.id, r.size) :: u.queue) : Nat) : Int)
              rw [hhot, hmod, hoccs, h1.mdz, hotBytes_eq, coldBytes_eq]
              simp only [charge]; omega
            · show s1.base.nObj + 1 = (((hotOf (⟨r.id, r.size, false, true⟩ :: u.stack)).length + ((r.id, r.size) :: u.queue).length : Nat) : Int)
              rw [hhot, hnobs]
              simp only [List.length_cons]; omega

theorem limitLoop_sim : ∀ n s t, Sim c g s t → Spec.LIRS.Inv c sz t → ∃ s', limitLoop n s = .ok s' ∧ Sim c g s' (trim c n t) := by
  intro n
  induction n with
  | zero => intro s t h _; exact ⟨s, rfl, h⟩
  | succ n ih =>
    intro s t h hi
    obtain ⟨ls, hrs, hes⟩ := h.S
    obtain ⟨ln, hrn, hen⟩ := h.N
    have hi' := (Spec.LIRS.trim_spec 1 t hi).1
    unfold limitLoop trim
    have hocc : (s.S.base.occ > 2 * (s.base.cacheSize : Int)) ↔ (t.stack.map (·.size)).sum > 2 * c.cache := by
      rw [hrs.occ, ← hes, sum_blk, h.csz]
      omega
    by_cases hgt : (t.stack.map (·.size)).sum > 2 * c.cache
    · rw [if_pos (hocc.2 hgt), if_pos hgt]
      unfold trim at hi'
      rw [if_pos hgt] at hi'
      have hq : s.NH.q = t.gone := by rw [hrn.q, hen]
      rw [hq]
      cases hg : t.gone.getLast? with
      | none => exact ⟨s, rfl, h⟩
      | some x =>
        rw [hg] at hi'
        simp only at hi' ⊢
        obtain ⟨gn, hgn⟩ := List.getLast?_eq_some_iff.1 hg
        rw [hgn] at hen
        obtain ⟨l0, l1, rfl, hl0, hl1⟩ := List.map_eq_append_iff.1 hen
        obtain ⟨o, l2, rfl, hob, hl2⟩ := List.map_eq_cons_iff.1 hl1
        have : l2 = [] := List.map_eq_nil_iff.1 hl2
        subst this
        obtain ⟨N', hev, hrN'⟩ := hrn.evictTail rfl
        have hxg : x ∈ t.gone := List.mem_of_getLast? hg
        obtain ⟨d, hd, hdx, hdr⟩ := (hi.core.gone x).1 hxg
        have hdc : d.hot = false := by
          cases e : d.hot with
          | false => rfl
          | true => have := hi.core.hr d hd e; rw [hdr] at this; cases this
        have hhot : hotOf (t.stack.filter (fun b => b.id ≠ x)) = hotOf t.stack := by
          unfold hotOf
          rw [List.filter_filter]
          congr 1
          refine List.filter_congr fun b hb => ?_
          by_cases e : b.id = x
          · have hbd := Spec.LIRS.eq_of_ids hi.core.sn hb hd (e.trans hdx.symm)
            rw [hbd, hdc]; simp
          · simp [e]
        have hxs : x ∈ ls.map (·.id) := by
          rw [← blk_ids, hes]
          exact List.mem_map.2 ⟨d, hd, hdx⟩
        obtain ⟨S', hrem, hrS'⟩ := hrs.remove_hit hxs
        rw [hrn.tailObj rfl, Res.bind_ok, hrem, Res.bind_ok, hev, Res.bind_ok]
        have h1 := h.withStack (S' := S') (st := t.stack.filter (fun b => b.id ≠ x)) ⟨_, hrS', by rw [← hes, List.filter_map]; rfl⟩ (by rw [hhot])
        have h2 : Sim c g { s with S := S', NH := N', nonresident := sub64 s.nonresident o.size } { t with stack := t.stack.filter (fun b => b.id ≠ x), gone := t.gone.dropLast } :=
          ⟨h1.csz, h1.mdz, h1.hl, h1.ll, h1.S, h1.Q, ⟨l0, hrN', by rw [hl0, hgn]; simp⟩, h1.lc, h1.hc, h1.occ, h1.nObj, h1.fail, h1.adm, h1.inGet⟩
        exact ih _ _ h2 hi'
    · rw [if_neg (fun hh => hgt (hocc.1 hh)), if_neg hgt]
      exact ⟨s, rfl, h⟩

theorem Sim.flag (h : Sim c g s t) (g' : Bool) : Sim c g' { s with inGet := g' } t :=
  ⟨h.csz, h.mdz, h.hl, h.ll, h.S, h.Q, h.N, h.lc, h.hc, h.occ, h.nObj, h.fail, h.adm, rfl⟩

theorem finish_sim (h : Sim c true s t) (hi : Spec.LIRS.Inv c sz t) : ∃ s', finish s = .ok s' ∧ Sim c false s' (trim c t.gone.length t) := by
  obtain ⟨s', e, h'⟩ := limitLoop_sim t.gone.length _ t (h.flag false) hi
  refine ⟨s', ?_, h'⟩
  unfold finish limitStack
  rw [if_pos h.inGet]
  have := lenN h
  simp only
  rw [this]
  exact e

theorem raise_ok {α : Type} (hf : s.fail = none) (k : Res α) : s.raise k = k := by unfold State.raise; rw [hf]

theorem Sim.bump (h : Sim c g s t) : Sim c true (algo.bump s) t :=
  ⟨h.csz, h.mdz, h.hl, h.ll, h.S, h.Q, h.N, h.lc, h.hc, h.occ, h.nObj, h.fail, h.adm, rfl⟩

/-- `find` with update. -/
theorem find_sim (hlim : c.cold ≤ c.hot) (h : Sim c false s t) (hi : Spec.LIRS.Inv c sz t) (r : Req) :
    ∃ s', algo.find s r true = .ok ((look c t r).1, s') ∧ Sim c false s' (look c t r).2 := by
  obtain ⟨s', e, h'⟩ := find0_sim hlim h hi r
  refine ⟨s', ?_, h'⟩
  show find s r true = _
  unfold find
  rw [raise_ok h.fail, e, Res.bind_ok]
  generalize look c t r = p at h'
  obtain ⟨b, u⟩ := p
  cases b with
  | false => rfl
  | true =>
    simp only [if_true]
    unfold finish
    rw [if_neg (by rw [h'.inGet]; simp), Res.bind_ok]

/-- `get`. -/
theorem get_sim (hlim : c.cold ≤ c.hot) (hcap : c.hot + c.cold = c.cache) (h : Sim c false s t) (hi : Spec.LIRS.Inv c sz t) {r : Req} (hr : Spec.LIRS.Third c sz r) :
    ∃ s', algo.get s r = .ok ((Spec.LIRS.get c t r).1, s') ∧ Sim c false s' (Spec.LIRS.get c t r).2 := by
  obtain ⟨s1, e, h1⟩ := find0_sim hlim h.bump hi r
  obtain ⟨l1, l2, l3⟩ := Spec.LIRS.look_spec hlim hi r
  have ef : algo.find (algo.bump s) r true = find0 (algo.bump s) r true >>= fun p => if p.1 then finish p.2 >>= fun s' => .ok (true, s') else .ok p := by
    show find (algo.bump s) r true = _
    unfold find
    rw [raise_ok h.bump.fail]
  rw [e, Res.bind_ok] at ef
  unfold Spec.LIRS.get
  generalize look c t r = p at h1 l1 l2 l3 ef
  obtain ⟨hit, u⟩ := p
  simp only at h1 l1 l2 l3 ef ⊢
  cases hit with
  | true =>
    simp only [if_true] at ef ⊢
    obtain ⟨s2, e2, h2⟩ := finish_sim h1 l2
    rw [e2, Res.bind_ok] at ef
    exact ⟨s2, get_hit ef, h2⟩
  | false =>
    simp only [Bool.false_eq_true, if_false] at ef ⊢
    obtain ⟨m1, m2, m3, m4, m5⟩ := l3.miss rfl
    have hout : r.id ∉ (Spec.LIRS.contents u).ids := fun hm => of_decide_eq_false l1.symm ((m1.map Prod.fst).symm.subset hm)
    obtain ⟨a1, a2⟩ := Spec.LIRS.admit_spec hlim l2 hr hout m5
    rcases admit_sim hlim hcap h1 l2 hr hout m5 with ⟨s2, e2, h2⟩ | ⟨s2, s3, e2, hroom, hmd, hcs, hfail, e3, h3⟩
    · obtain ⟨s4, e4, h4⟩ := finish_sim h2 a1
      refine ⟨s4, get_reject ef (s2 := s4) ?_, h4⟩
      show canInsert s1 r = _
      unfold canInsert
      rw [e2, Res.bind_ok]
      simp only [Bool.false_eq_true, if_false]
      rw [e4, Res.bind_ok]
      rfl
    · obtain ⟨s4, e4, h4⟩ := finish_sim h3 a1
      have hne : algo.mustEvict s2 r = false := by
        unfold Algo.mustEvict
        refine decide_eq_false ?_
        show ¬ (s2.base.occ + (r.size : Int) + (s2.base.objMd : Int) > (s2.base.cacheSize : Int))
        rw [hmd, hcs]
        omega
      refine ⟨s4, get_accept ef (s2 := s2) (s3 := s2) ?_ ?_ ?_, h4⟩
      · show canInsert s1 r = _
        unfold canInsert
        rw [e2, Res.bind_ok]
        simp only [if_true]
        rfl
      · unfold Algo.evictLoop
        split <;> simp [hne]
      · show insert s2 r = _
        unfold insert
        rw [raise_ok hfail, e3, Res.bind_ok]
        exact e4

end LIRS
end Verif
