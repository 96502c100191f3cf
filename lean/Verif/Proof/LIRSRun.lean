import Verif.Proof.LIRS
import Verif.Proof.LIRSGet
import Mathlib.Data.List.Induction
/-!
# Runs of LIRS
-/

namespace Verif.Spec.LIRS
open Verif Verif.Spec
variable {c : Limits} {sz : ObjId → Nat} {s : State}

/-- bytes of the blocks on the stack -/
def stackBytes (l : List Block) : Nat := (l.map (·.size)).sum

theorem trim_short : ∀ n s, s.gone.length ≤ n → stackBytes (trim c n s).stack ≤ 2 * c.cache ∨ (trim c n s).gone = [] := by
  intro n
  induction n with
  | zero => intro s h; right; exact List.length_eq_zero_iff.1 (Nat.le_zero.1 h)
  | succ n ih =>
    intro s h
    unfold trim
    split
    · split
      · rename_i hg
        right
        exact List.getLast?_eq_none_iff.1 hg
      · refine ih _ ?_
        show s.gone.dropLast.length ≤ n
        rw [List.length_dropLast]; omega
    · left; unfold stackBytes; omega

/-- without blocks that are not cached, the stack has no more bytes than the cache -/
theorem Inv.stack_le (h : Inv c sz s) (hg : s.gone = []) : stackBytes s.stack ≤ c.hot + c.cold := by
  have hres : ∀ b ∈ s.stack, b.resident = true := by
    intro b hb
    cases hr : b.resident with
    | true => rfl
    | false =>
      have := (h.core.gone b.id).2 ⟨b, hb, rfl, hr⟩
      rw [hg] at this; cases this
  have hin : ∀ b ∈ s.stack, (b.id, b.size) ∈ contents s := by
    intro b hb
    unfold contents
    rw [List.mem_append]
    by_cases hh : b.hot = true
    · exact Or.inl (mem_hotOf.2 ⟨b, hb, hh, rfl⟩)
    · right
      have hq := (h.core.cold b hb (by simp [noneE])).2 ⟨by simpa using hh, hres b hb⟩
      obtain ⟨x, hx, e⟩ := List.mem_map.1 hq
      have e1 := (h.core.szS b hb).1
      have e2 := (h.core.szQ x hx).1
      rw [e1, ← e]
      rw [← e2]
      exact hx
  have hsub : (s.stack.map (fun b => (b.id, b.size))).Subperm (contents s) := by
    refine List.subperm_of_subset ?_ ?_
    · refine List.Nodup.of_map Prod.fst ?_
      rw [List.map_map]
      exact h.core.sn
    · intro x hx
      obtain ⟨b, hb, rfl⟩ := List.mem_map.1 hx
      exact hin b hb
  have e1 : stackBytes s.stack = charge 0 (s.stack.map (fun b => (b.id, b.size))) := by
    rw [← bytes_eq_charge]
    unfold stackBytes bytes
    rw [List.map_map]
    congr 1
  rw [e1]
  refine Nat.le_trans (charge_subperm hsub) ?_
  rw [← bytes_eq_charge]
  exact capacity h

/-- after a `get`, the stack has at most twice the bytes of the cache -/
theorem get_stack_le (hlim : c.cold ≤ c.hot) (hcap : c.hot + c.cold = c.cache) (h : Inv c sz s) {r : Req} (hr : Third c sz r) :
    stackBytes (get c s r).2.stack ≤ 2 * c.cache := by
  have hi := (get_spec hlim h hr).1
  have := trim_short (c := c) _ (if (look c s r).1 then (look c s r).2 else admit c (look c s r).2 r) (Nat.le_refl _)
  rcases this with h1 | h1
  · exact h1
  · have := hi.stack_le h1
    omega

end Verif.Spec.LIRS

namespace Verif.LIRS
open Verif Verif.Spec
open _root_.Verif.Spec.LIRS (Limits Block looks Third hotOf contents hotBytes coldBytes Core noneE cut)
variable {c : Limits} {sz : ObjId → Nat} {s : State}

/-- what LIRS has cached: the LIR objects of the stack and the objects of the queue -/
def cached (s : State) : Contents := cont (s.S.objs.filter (fun o => o.mt.isLIR)) ++ cont s.Q.objs

/-- what `s` looks like on lists -/
def view (s : State) : Spec.LIRS.State := ⟨s.S.objs.map blk, cont s.Q.objs, s.NH.objs.map (·.id), s.base.adm⟩

theorem Sim.view {g : Bool} {t : Spec.LIRS.State} (h : Sim c g s t) : view s = t := by
  obtain ⟨ls, h1, e1⟩ := h.S
  obtain ⟨lq, h2, e2, _⟩ := h.Q
  obtain ⟨ln, h3, e3⟩ := h.N
  unfold LIRS.view
  rw [h1.objs, h2.objs, h3.objs, e1, e2, e3, h.adm]

theorem cached_eq (s : State) : cached s = contents (view s) := by
  unfold cached contents view hotOf cont
  simp only [List.filter_map, List.map_map]
  rfl

/-- the reachable states -/
structure RInv (c : Limits) (sz : ObjId → Nat) (s : State) : Prop where
  sim : Sim c false s (view s)
  inv : Spec.LIRS.Inv c sz (view s)

theorem sim_init (cs hl : Nat) (adm : Adm) (strict : Bool) : Sim ⟨cs, cs - hl, hl⟩ false (init cs hl 0 adm strict) { adm := adm } := by
  refine ⟨rfl, rfl, rfl, rfl, ⟨[], Rep.init _ _ _, rfl⟩, ⟨[], Rep.init _ _ _, rfl, by simp⟩, ⟨[], Rep.init _ _ _, rfl⟩, rfl, rfl, rfl, rfl, rfl, rfl, rfl⟩

theorem RInv.of_sim {t : Spec.LIRS.State} (h : Sim c false s t) (hi : Spec.LIRS.Inv c sz t) : RInv c sz s := by
  have e := h.view
  subst e
  exact ⟨h, hi⟩

theorem rinv_init (cs hl : Nat) (adm : Adm) (strict : Bool) : RInv ⟨cs, cs - hl, hl⟩ sz (init cs hl 0 adm strict) :=
  RInv.of_sim (sim_init cs hl adm strict) (Spec.LIRS.inv_init adm)

theorem step_sim (hlim : c.cold ≤ c.hot) (hcap : c.hot + c.cold = c.cache) (h : RInv c sz s) {op : Op} (ho : Calls looks (Third c sz) op) :
    ∃ s', algo.step s op = .ok ((Spec.LIRS.step c (view s) op).1, s') ∧ RInv c sz s' ∧ view s' = (Spec.LIRS.step c (view s) op).2 := by
  cases op with
  | get r =>
    obtain ⟨s', e, h'⟩ := get_sim hlim hcap h.sim h.inv (show Third c sz r from ho)
    exact ⟨s', e, RInv.of_sim h' (Spec.LIRS.get_spec hlim h.inv ho).1, h'.view⟩
  | find r u =>
    cases u with
    | false => simp [Calls, looks] at ho
    | true =>
      obtain ⟨s', e, h'⟩ := find_sim hlim h.sim h.inv r
      exact ⟨s', e, RInv.of_sim h' (Spec.LIRS.look_spec hlim h.inv r).2.1, h'.view⟩
  | remove id => simp [Calls, looks] at ho
  | evict r => simp [Calls, looks] at ho
  | insert r => simp [Calls, looks] at ho

theorem run_sim (hlim : c.cold ≤ c.hot) (hcap : c.hot + c.cold = c.cache) : ∀ ops s, RInv c sz s → (∀ op ∈ ops, Calls looks (Third c sz) op) →
    ∃ s', algo.run s ops = .ok ((Spec.LIRS.run c (view s) ops).1, s') ∧ RInv c sz s' ∧ view s' = (Spec.LIRS.run c (view s) ops).2 := by
  intro ops
  induction ops with
  | nil => intro s h _; exact ⟨s, rfl, h, rfl⟩
  | cons op ops ih =>
    intro s h ho
    obtain ⟨s1, e1, h1, v1⟩ := step_sim hlim hcap h (ho op List.mem_cons_self)
    obtain ⟨s2, e2, h2, v2⟩ := ih s1 h1 (fun o hx => ho o (List.mem_cons_of_mem _ hx))
    refine ⟨s2, ?_, h2, ?_⟩
    · simp only [Algo.run, e1, Res.bind_ok, e2, Spec.LIRS.run, v1]
    · rw [v2, v1]; rfl

theorem reach (hlim : c.cold ≤ c.hot) (hcap : c.hot + c.cold = c.cache) {s0 : State} (h0 : RInv c sz s0) {ops : List Op} {out : List Bool}
    (ho : ∀ op ∈ ops, Calls looks (Third c sz) op) (h : Reaches algo s0 ops out s) : RInv c sz s := by
  obtain ⟨s', e, h', _⟩ := run_sim hlim hcap ops s0 h0 ho
  unfold Reaches at h
  rw [e] at h
  injection h with h; injection h with _ h; rw [← h]; exact h'

theorem RInv.capacity (h : RInv c sz s) (hcap : c.hot + c.cold = c.cache) : s.base.occ ≤ (c.cache : Int) := by
  rw [h.sim.occ]
  have h1 := h.inv.core.hotLe
  have h2 := h.inv.core.coldLe
  omega

theorem RInv.accounting (h : RInv c sz s) : s.base.occ = (bytes 0 (cached s) : Nat) ∧ s.base.nObj = ((cached s).length : Nat) := by
  rw [h.sim.occ, h.sim.nObj, cached_eq]
  unfold contents
  constructor
  · congr 1
    rw [bytes_eq_charge, charge_append, Spec.LIRS.hotBytes_eq, Spec.LIRS.coldBytes_eq]
  · rw [List.length_append]

theorem RInv.nodup (h : RInv c sz s) : (cached s).ids.Nodup := by rw [cached_eq]; exact h.inv.core.nodup

/-- What `get` does. -/
theorem RInv.get (h : RInv c sz s) (hlim : c.cold ≤ c.hot) (hcap : c.hot + c.cold = c.cache) {r : Req} (hr : Third c sz r) :
    ∃ b s', algo.get s r = .ok (b, s') ∧ RInv c sz s' ∧ Spec.LIRS.Got c (view s) r (view s') b ∧ Spec.LIRS.stackBytes (view s').stack ≤ 2 * c.cache := by
  obtain ⟨s', e, h'⟩ := get_sim hlim hcap h.sim h.inv hr
  obtain ⟨g1, g2⟩ := Spec.LIRS.get_spec hlim h.inv hr
  refine ⟨_, s', e, RInv.of_sim h' g1, ?_, ?_⟩
  · rw [h'.view]; exact g2
  · rw [h'.view]; exact Spec.LIRS.get_stack_le hlim hcap h.inv hr

theorem RInv.find (h : RInv c sz s) (hlim : c.cold ≤ c.hot) (r : Req) :
    ∃ s', algo.find s r true = .ok (decide (r.id ∈ (cached s).ids), s') ∧ RInv c sz s' ∧ ∃ vs, (cached s).Perm (vs ++ cached s') := by
  obtain ⟨s', e, h'⟩ := find_sim hlim h.sim h.inv r
  obtain ⟨g1, g2, g3⟩ := Spec.LIRS.look_spec hlim h.inv r
  refine ⟨s', ?_, RInv.of_sim h' g2, ?_⟩
  · rw [e, g1, cached_eq]
  · rw [cached_eq, cached_eq, h'.view]
    exact g3.evicted

/-- one call adds at most the requested object -/
theorem RInv.adds (h : RInv c sz s) (hlim : c.cold ≤ c.hot) (hcap : c.hot + c.cold = c.cache) {op : Op} (ho : Calls looks (Third c sz) op) {b : Bool} {s' : State}
    (e : algo.step s op = .ok (b, s')) : RInv c sz s' ∧ ∀ x ∈ cached s', x ∈ cached s ∨ ∃ r, insertedBy op = some r ∧ x = (r.id, r.size % u32) := by
  cases op with
  | get r =>
    have hr : Third c sz r := ho
    obtain ⟨b1, s1, e1, h1, g, _⟩ := h.get hlim hcap hr
    have e' : algo.get s r = .ok (b, s') := e
    rw [e1] at e'
    injection e' with e'; injection e' with eb es
    subst eb; subst es
    refine ⟨h1, fun x hx => ?_⟩
    rw [cached_eq] at hx
    rw [cached_eq]
    cases b1 with
    | true =>
      obtain ⟨vs, hp⟩ := g.onHit rfl
      exact Or.inl (hp.symm.subset (List.mem_append_right _ hx))
    | false =>
      by_cases ha : Spec.LIRS.admits c (view s) r
      · obtain ⟨vs, rest, hp, hq, _⟩ := g.yes rfl ha
        rcases List.mem_cons.1 (hq.subset hx) with hx | hx
        · exact Or.inr ⟨r, rfl, by rw [hx, Nat.mod_eq_of_lt hr.2.1]⟩
        · exact Or.inl (hp.symm.subset (List.mem_append_right _ hx))
      · exact Or.inl ((g.no rfl ha).symm.subset hx)
  | find r u =>
    cases u with
    | false => simp [Calls, looks] at ho
    | true =>
      obtain ⟨s1, e1, h1, vs, hp⟩ := h.find hlim r
      have e' : algo.find s r true = .ok (b, s') := e
      rw [e1] at e'
      injection e' with e'; injection e' with eb es
      subst es
      exact ⟨h1, fun x hx => Or.inl (hp.symm.subset (List.mem_append_right _ hx))⟩
  | remove id => simp [Calls, looks] at ho
  | evict r => simp [Calls, looks] at ho
  | insert r => simp [Calls, looks] at ho

theorem noPhantom (hlim : c.cold ≤ c.hot) (hcap : c.hot + c.cold = c.cache) {s0 : State} (h0 : RInv c sz s0) (he : cached s0 = []) :
    NoPhantom algo cached s0 (Calls looks (Third c sz)) := by
  intro ops
  induction ops using List.reverseRecOn with
  | nil =>
    intro out s _ h
    simp only [Reaches, Algo.run] at h
    cases h
    exact ⟨h0.nodup, by simp [he]⟩
  | append_singleton ops op ih =>
    intro out s ho h
    refine ⟨(reach hlim hcap h0 ho h).nodup, ?_⟩
    have ho' : ∀ o ∈ ops, Calls looks (Third c sz) o := fun o h => ho o (by simp [h])
    obtain ⟨s1, hr1, hi1, _⟩ := run_sim hlim hcap ops s0 h0 ho'
    obtain ⟨_, hph⟩ := ih _ s1 ho' hr1
    unfold Reaches at h
    rw [run_append, hr1] at h
    obtain ⟨s2, hst, hi2, _⟩ := step_sim hlim hcap hi1 (ho op (by simp))
    have hadd := (hi1.adds hlim hcap (ho op (by simp)) hst).2
    simp only [Algo.run, hst, Res.bind_ok] at h
    cases h
    have hop := ho op (by simp)
    intro x hx
    rcases hadd x hx with hx | ⟨r, hr, hxr⟩
    · obtain ⟨pre, op', post, r, h1, h2, h3, h4, h5⟩ := hph x hx
      refine ⟨pre, op', post ++ [op], r, by simp [h1], h2, h3, h4, ?_⟩
      simp only [List.mem_append, List.mem_singleton, not_or]
      refine ⟨h5, fun e => ?_⟩
      rw [← e] at hop
      simp [Calls, looks] at hop
    · exact ⟨ops, op, [], r, rfl, hr, by simp [hxr], by simp [hxr], by simp⟩

/-! ### remove -/

theorem filter_perm_of {l : Contents} (hn : l.ids.Nodup) {x : ObjId × Nat} {l' : Contents} (h : l.Perm (x :: l')) : l'.Perm (l.filter (fun y => y.1 ≠ x.1)) := by
  have h1 := h.filter (fun y => decide (y.1 ≠ x.1))
  rw [List.filter_cons_of_neg (by simp)] at h1
  have h2 : l'.filter (fun y => decide (y.1 ≠ x.1)) = l' := by
    rw [List.filter_eq_self]
    intro y hy
    have hn' := (h.map Prod.fst).nodup_iff.1 hn
    rw [List.map_cons, List.nodup_cons] at hn'
    exact decide_eq_true fun e => hn'.1 (by rw [← e]; exact List.mem_map_of_mem hy)
  rw [h2] at h1
  exact h1.symm

theorem hotOf_del (i : ObjId) (l : List Block) : hotOf (l.filter (fun b => b.id ≠ i)) = (hotOf l).filter (fun x => x.1 ≠ i) := by
  induction l with
  | nil => rfl
  | cons b l ih =>
    rw [List.filter_cons, Spec.LIRS.hotOf_cons]
    by_cases hb : b.id = i
    · rw [if_neg (by simp [hb]), ih]
      split
      · rw [List.filter_cons_of_neg (by simp [hb])]
      · rfl
    · rw [if_pos (by simp [hb]), Spec.LIRS.hotOf_cons, ih]
      split
      · rw [List.filter_cons_of_pos (by simp [hb])]
      · rfl

theorem blk_del (i : ObjId) (l : List (Obj Meta)) : (delL i l).map blk = (l.map blk).filter (fun b => b.id ≠ i) := by
  rw [List.filter_map]; rfl

theorem cont_del (i : ObjId) (l : List (Obj Meta)) : cont (delL i l) = (cont l).filter (fun x => x.1 ≠ i) := by
  unfold cont
  rw [List.filter_map]; rfl

/-- `remove`, after the model has read the sizes of the freed objects: a cached object is removed, and nothing else. -/
theorem RInv.remove (h : RInv c sz s) (hst : s.strict = false) (id : ObjId) :
    ∃ s', algo.remove s id = .ok (decide (id ∈ Spec.LIRS.ids (view s).stack ∨ id ∈ (view s).queue.ids), s') ∧
      (cached s').Perm ((cached s).filter (fun x => x.1 ≠ id)) := by
  have hraise : algo.remove s id = remove0 s id := raise_ok h.sim.fail _
  rw [hraise]
  have hcore := h.inv.core
  obtain ⟨ls, hS, eS⟩ := h.sim.S
  obtain ⟨lq, hQ, eQ, hQc⟩ := h.sim.Q
  obtain ⟨ln, hN, eN⟩ := h.sim.N
  have hfree : ∀ o, freedSize s o = .ok o.size := by intro o; unfold freedSize; rw [hst]; rfl
  suffices hmain : ∃ s', remove0 s id = .ok (decide (id ∈ Spec.LIRS.ids (LIRS.view s).stack ∨ id ∈ (LIRS.view s).queue.ids), s') ∧
      (contents (LIRS.view s')).Perm ((contents (LIRS.view s)).filter (fun x => x.1 ≠ id)) by
    obtain ⟨s', e, hp⟩ := hmain
    exact ⟨s', e, by rw [cached_eq, cached_eq]; exact hp⟩
  have hsim := h.sim
  clear h
  generalize hv : LIRS.view s = t at *
  by_cases hin : id ∈ Spec.LIRS.ids t.stack
  · obtain ⟨b, hb, hbid⟩ := List.mem_map.1 hin
    obtain ⟨o, hpk, hob⟩ := peekS hsim hb
    rw [hbid] at hpk
    have hmS : id ∈ ls.map (·.id) := by rw [← blk_ids, eS]; exact hin
    obtain ⟨S', er, hS'⟩ := hS.remove_hit hmS
    have hstk : (delL id ls).map blk = t.stack.filter (fun b => b.id ≠ id) := by rw [blk_del, eS]
    unfold remove0
    rw [hpk, decide_eq_true (Or.inl hin)]
    simp only
    rw [er, Res.bind_ok, hfree, Res.bind_ok]
    by_cases hh : b.hot = true
    · rw [if_pos (show o.mt.isLIR = true by rw [← hob] at hh; exact hh)]
      have hnq : id ∉ t.queue.ids := by rw [← hbid]; exact hcore.hotNotQueued hb hh
      have hosz : o.size = b.size := by rw [← hob]; rfl
      have hsplit : (hotOf t.stack).Perm ((b.id, b.size) :: hotOf (t.stack.filter (fun b => b.id ≠ id))) := by
        rw [hotOf_del]
        have hnd : (hotOf t.stack).ids.Nodup := by
          have := hcore.nodup
          unfold contents Contents.ids at this
          rw [List.map_append] at this
          exact (List.nodup_append.1 this).1
        have hbm : (b.id, b.size) ∈ hotOf t.stack := Spec.LIRS.mem_hotOf.2 ⟨b, hb, hh, rfl⟩
        have := Spec.LIRS.filter_queue_perm hnd hbm
        rw [show (fun y : ObjId × Nat => decide (y.1 ≠ id)) = (fun y : ObjId × Nat => decide (y.1 ≠ (b.id, b.size).1)) by rw [← hbid]]
        exact this.symm
      have hbytes : hotBytes t = hotBytes { t with stack := t.stack.filter (fun b => b.id ≠ id) } + b.size := by
        rw [Spec.LIRS.hotBytes_eq, Spec.LIRS.hotBytes_eq, charge_perm hsplit]
        simp only [charge]; omega
      have hlen : (hotOf t.stack).length = (hotOf (t.stack.filter (fun b => b.id ≠ id))).length + 1 := by rw [hsplit.length_eq]; rfl
      have hcore' : Core c sz noneE { t with stack := t.stack.filter (fun b => b.id ≠ id) } := by
        have hsub : ∀ x ∈ t.stack.filter (fun b => b.id ≠ id), x ∈ t.stack := fun x hx => List.mem_of_mem_filter hx
        refine ⟨hcore.sn.sublist (List.filter_sublist.map _), hcore.qn, hcore.gn, fun x hx => hcore.hr x (hsub x hx), fun x hx => hcore.eh x (hsub x hx),
          fun x hx => hcore.cold x (hsub x hx), ?_, fun x hx => hcore.szS x (hsub x hx), hcore.szQ, ?_, hcore.coldLe⟩
        · intro x
          rw [hcore.gone x]
          constructor
          · rintro ⟨d, hd, e, hr⟩
            refine ⟨d, List.mem_filter.2 ⟨hd, decide_eq_true fun e' => ?_⟩, e, hr⟩
            have : d = b := Spec.LIRS.eq_of_ids hcore.sn hd hb (e'.trans hbid.symm)
            rw [this, hcore.hr b hb hh] at hr
            cases hr
          · rintro ⟨d, hd, e, hr⟩
            exact ⟨d, hsub d hd, e, hr⟩
        · have := hcore.hotLe
          rw [hbytes] at this
          omega
      have hsim' : Sim c false (({ s with S := S', lirsCount := sub64 s.lirsCount o.size } : State).count (-(o.size : Int)) (-1)) { t with stack := t.stack.filter (fun b => b.id ≠ id) } := by
        refine ⟨hsim.csz, hsim.mdz, hsim.hl, hsim.ll, ⟨_, hS', hstk⟩, hsim.Q, hsim.N, ?_, hsim.hc, ?_, ?_, hsim.fail, hsim.adm, hsim.inGet⟩
        · show sub64 s.lirsCount o.size = _
          rw [hsim.lc, hbytes, hosz]
          unfold sub64
          rw [if_pos (by omega)]
          omega
        · show s.base.occ + _ = _
          rw [hsim.occ, hbytes, hosz]
          show _ = ((hotBytes _ + coldBytes t : Nat) : Int)
          omega
        · show s.base.nObj + _ = _
          rw [hsim.nObj, hlen]
          show _ = (((hotOf (t.stack.filter (fun b => b.id ≠ id))).length + t.queue.length : Nat) : Int)
          omega
      obtain ⟨s', e2, h2⟩ := prune_sim hsim' hcore'
      rw [e2, Res.bind_ok]
      refine ⟨s', rfl, ?_⟩
      rw [h2.view]
      show (contents (cut _ _)).Perm _
      have e3 : contents (cut ({ t with stack := t.stack.filter (fun b => b.id ≠ id) } : Spec.LIRS.State) (Spec.LIRS.prune (t.stack.filter (fun b => b.id ≠ id)))) =
          (hotOf t.stack).filter (fun x => x.1 ≠ id) ++ t.queue := by
        show hotOf (Spec.LIRS.prune _) ++ t.queue = _
        rw [Spec.LIRS.hotOf_prune, hotOf_del]
      rw [e3]
      unfold contents
      rw [List.filter_append]
      have e4 : t.queue.filter (fun x => decide (x.1 ≠ id)) = t.queue := by
        rw [List.filter_eq_self]
        intro x hx
        exact decide_eq_true fun e => hnq (by rw [← e]; exact List.mem_map_of_mem hx)
      rw [e4]
    · have hl : ¬ o.mt.isLIR = true := by rw [← hob] at hh; exact hh
      rw [if_neg hl]
      have hnh : hotOf (t.stack.filter (fun b => b.id ≠ id)) = hotOf t.stack := by
        rw [hotOf_del, List.filter_eq_self]
        intro x hx
        obtain ⟨d, hd, hdh, e⟩ := Spec.LIRS.mem_hotOf.1 hx
        refine decide_eq_true fun e' => hh ?_
        rw [← e] at e'
        have : d = b := Spec.LIRS.eq_of_ids hcore.sn hd hb (e'.trans hbid.symm)
        rw [← this]; exact hdh
      generalize hs1 : (if o.mt.inCache then ({ s with S := S', hirsCount := sub64 s.hirsCount o.size } : State).count (-(o.size : Int)) (-1)
        else { s with S := S', nonresident := sub64 s.nonresident o.size } : State) = s1
      have hs1S : s1.S = S' := by rw [← hs1]; split <;> rfl
      have hs1Q : s1.Q = s.Q := by rw [← hs1]; split <;> rfl
      by_cases hq : id ∈ t.queue.ids
      · obtain ⟨x, hx, hxid⟩ := List.mem_map.1 hq
        obtain ⟨oq, hpq, _⟩ := peekQ hsim hx
        rw [hxid] at hpq
        rw [hpq]
        simp only
        have hmQ : id ∈ lq.map (·.id) := by rw [← cont_ids, eQ]; exact hq
        obtain ⟨Q', erq, hQ'⟩ := hQ.remove_hit hmQ
        rw [hs1Q, erq, Res.bind_ok]
        refine ⟨_, rfl, ?_⟩
        show (hotOf (s1.S.objs.map blk) ++ cont Q'.objs).Perm _
        rw [hs1S, hS'.objs, hQ'.objs, hstk, hnh, cont_del, eQ]
        unfold contents
        rw [List.filter_append]
        rw [show (hotOf t.stack).filter (fun x => decide (x.1 ≠ id)) = hotOf t.stack by rw [← hotOf_del, hnh]]
      · rw [peekQ_none hsim hq]
        refine ⟨s1, rfl, ?_⟩
        show (hotOf (s1.S.objs.map blk) ++ cont s1.Q.objs).Perm _
        rw [hs1S, hs1Q, hS'.objs, hQ.objs, hstk, hnh, eQ]
        unfold contents
        rw [List.filter_append]
        rw [show (hotOf t.stack).filter (fun x => decide (x.1 ≠ id)) = hotOf t.stack by rw [← hotOf_del, hnh]]
        rw [show t.queue.filter (fun x => decide (x.1 ≠ id)) = t.queue by
          rw [List.filter_eq_self]
          intro x hx
          exact decide_eq_true fun e => hq (by rw [← e]; exact List.mem_map_of_mem hx)]
  · unfold remove0
    rw [peekS_none hsim hin]
    have hnh : (hotOf t.stack).filter (fun x => decide (x.1 ≠ id)) = hotOf t.stack := by
      rw [List.filter_eq_self]
      intro x hx
      obtain ⟨d, hd, hdh, e⟩ := Spec.LIRS.mem_hotOf.1 hx
      refine decide_eq_true fun e' => hin ?_
      rw [← e] at e'
      exact List.mem_map.2 ⟨d, hd, e'⟩
    by_cases hq : id ∈ t.queue.ids
    · obtain ⟨x, hx, hxid⟩ := List.mem_map.1 hq
      obtain ⟨oq, hpq, hoq⟩ := peekQ hsim hx
      rw [hxid] at hpq
      have hmQ : id ∈ lq.map (·.id) := by rw [← cont_ids, eQ]; exact hq
      obtain ⟨Q', erq, hQ'⟩ := hQ.remove_hit hmQ
      obtain ⟨o', ho1, ho2, ho3⟩ := hQ.lookup_some hmQ
      have hpo : peek s.Q id = some o' := ho1
      rw [hpq] at hpo
      injection hpo with hpo
      subst hpo
      rw [hpq, decide_eq_true (Or.inr hq)]
      simp only
      rw [erq, Res.bind_ok, hfree, Res.bind_ok, if_pos (hQc oq ho2)]
      refine ⟨_, rfl, ?_⟩
      show (hotOf (s.S.objs.map blk) ++ cont Q'.objs).Perm _
      rw [hS.objs, hQ'.objs, eS, cont_del, eQ]
      unfold contents
      rw [List.filter_append, hnh]
    · rw [peekQ_none hsim hq, decide_eq_false (by simp [hin, hq])]
      refine ⟨s, rfl, ?_⟩
      rw [hv]
      unfold contents
      rw [List.filter_append, hnh]
      rw [show t.queue.filter (fun x => decide (x.1 ≠ id)) = t.queue by
          rw [List.filter_eq_self]
          intro x hx
          exact decide_eq_true fun e => hq (by rw [← e]; exact List.mem_map_of_mem hx)]

end Verif.LIRS
