import Verif.Proof.AmSim
import Verif.Proof.LPTwoQ
/-!
# LP_TwoQ is the textbook 2Q
-/

namespace Verif
open Spec

namespace LPTwoQ

/-- the textbook state: the three queues -/
def view (s : State) : Spec.TwoQ.St (List Item) := ⟨cont s.ain.objs, s.aout.order, Clock.view s.am⟩

section
variable {cs as gs : Nat} {d : Prop} {s : State}

theorem amIds (h : Inv cs as gs d s) (i : ObjId) : i ∈ Contents.ids ((Spec.clock 1).contents (view s).am) ↔ i ∈ s.am.base.cached.ids :=
  (((AmSim.clock (cs - as) 1).contents h.am).map Prod.fst).mem_iff

theorem view_perm (h : Inv cs as gs d s) : (Spec.TwoQ.contents (Spec.clock 1) (view s)).Perm (cached s) :=
  ((AmSim.clock (cs - as) 1).contents h.am).append_left _

theorem look_view (h : Inv cs as gs d s) {r : Req} {b : Bool} {s' : State} (hf : find s r true = .ok (b, s')) :
    Spec.TwoQ.look (Spec.clock 1) (view s) r = (b, view s') := by
  by_cases ha : r.id ∈ s.ain.objs.map (·.id)
  · rw [findAin h ha] at hf
    cases hf
    unfold Spec.TwoQ.look
    rw [if_pos (show r.id ∈ Contents.ids (view s).ain by rw [show (view s).ain = cont s.ain.objs from rfl, cont_ids]; exact ha)]
    rfl
  · obtain ⟨g, g1, g2, g3⟩ := h.aout.fifoRemove r.id
    obtain ⟨_, m, k1, _, _, _, _, k6⟩ := findAm h ha
    rw [find, ainFind h r, Res.bind_ok] at hf k1
    simp only [if_true, decide_eq_false ha, Bool.false_eq_true, if_false, g1, Res.bind_ok] at hf k1
    obtain ⟨⟨b1, m1⟩, e1, e2⟩ := Res.bind_eq_ok.1 hf
    obtain ⟨⟨b2, m2⟩, e3, e4⟩ := Res.bind_eq_ok.1 k1
    rw [e1] at e3
    cases e3
    cases e2
    injection e4 with e4
    injection e4 with hb e4
    have em : m1 = m := congrArg State.am e4
    subst em
    unfold Spec.TwoQ.look
    rw [if_neg (show ¬ r.id ∈ Contents.ids (view s).ain by rw [show (view s).ain = cont s.ain.objs from rfl, cont_ids]; exact ha)]
    have eo := h.aout.order_remove r.id g1
    simp only at hb
    by_cases hm : r.id ∈ s.am.base.cached.ids
    · rw [if_pos (show r.id ∈ Contents.ids ((Spec.clock 1).contents (view s).am) from (amIds h _).2 hm)]
      rw [hb, decide_eq_true hm] at e1
      have ev := (AmSim.clock (cs - as) 1).findHit r h.am hm e1
      rw [hb, decide_eq_true hm]
      unfold view Spec.TwoQ.forget
      simp only
      rw [ev, eo]
    · rw [if_neg (show ¬ r.id ∈ Contents.ids ((Spec.clock 1).contents (view s).am) from fun hx => hm ((amIds h _).1 hx))]
      rw [hb, decide_eq_false hm]
      unfold view Spec.TwoQ.forget
      simp only
      rw [k6 hm, eo]

theorem evict_view (h : Inv cs as gs d s) {r : Req} {s' : State} (hne : s.ain.base.occ > (s.ainSize : Int) ∨ s.am.base.cached ≠ [])
    (he : evict s r = .ok s') : view s' = Spec.TwoQ.evict (Spec.clock 1) as gs (view s) := by
  have hocc : s.ain.base.occ > (s.ainSize : Int) ↔ bytes 0 (cont s.ain.objs) > as := by rw [h.ain.occ, h.ainz, bytes_eq_charge]; omega
  unfold Spec.TwoQ.evict
  by_cases ho : s.ain.base.occ > (s.ainSize : Int)
  · have hpos : 0 < charge 0 (cont s.ain.objs) := by rw [h.ain.occ] at ho; omega
    obtain ⟨l, o, e⟩ := exists_last_of_charge hpos
    obtain ⟨b, g, a, g1, k1, k2, k3⟩ := evictAin h e ho r
    rw [k1] at he
    cases he
    rw [if_pos (show bytes 0 (view s).ain > as from hocc.1 ho)]
    have eg := (AmSim.fifo gs).get o.toReq h.aout g1
    have e1 : (view s).ain = cont l ++ [(o.id, o.size)] := by show cont s.ain.objs = _; rw [e]; simp
    rw [e1, List.getLast?_concat]
    simp only [List.dropLast_concat]
    unfold view
    simp only
    rw [k3, eg]
    rfl
  · rw [if_neg (show ¬ bytes 0 (view s).ain > as from fun hx => ho (hocc.2 hx))]
    have hne' := hne.resolve_left ho
    rw [evict, if_neg ho] at he
    obtain ⟨m, m1, m2⟩ := Res.bind_eq_ok.1 he
    cases m2
    have := (AmSim.clock (cs - as) 1).evict r h.am hne' m1
    unfold view
    simp only
    rw [this]

theorem loop_view {r : Req} (hr : r.size ≤ as) : ∀ (n m : Nat) (s s' : State), Inv cs as gs d s → (cached s).length ≤ m →
    algo.evictLoop r n s = .ok s' → view s' = Spec.TwoQ.room (Spec.clock 1) cs as gs r.size m (view s) := by
  have stop : ∀ (m : Nat) (s : State), Inv cs as gs d s → ¬ algo.mustEvict s r = true → view s = Spec.TwoQ.room (Spec.clock 1) cs as gs r.size m (view s) := by
    intro m s h hm
    cases m with
    | zero => rfl
    | succ m =>
      rw [Spec.TwoQ.room, if_pos]
      rw [bytes_eq_charge, charge_perm (view_perm h)]
      rw [mustEvict_iff h r] at hm
      omega
  intro n
  induction n with
  | zero =>
    intro m s s' h _ he
    simp only [Algo.evictLoop] at he
    split at he
    · simp at he
    · rename_i hm
      cases he
      exact stop m s h hm
  | succ n ih =>
    intro m s s' h hl he
    simp only [Algo.evictLoop] at he
    split at he
    · rename_i hme
      have hc := canEvict h r hr hme
      obtain ⟨s1, v, k1, k2, k3, _⟩ := evict_spec h r hc
      rw [show algo.evict s r = evict s r from rfl, k1, Res.bind_ok] at he
      have hlen := k3.length_eq
      rw [List.length_cons] at hlen
      cases m with
      | zero => omega
      | succ m =>
        rw [Spec.TwoQ.room, if_neg]
        · rw [← evict_view h hc k1]
          exact ih m s1 s' k2 (by omega) he
        · rw [bytes_eq_charge, charge_perm (view_perm h)]
          rw [mustEvict_iff h r] at hme
          omega
    · rename_i hm
      cases he
      exact stop m s h hm

theorem insert_view (h : Inv cs as gs d s) {r : Req} {s' : State} (hn : r.id ∉ (cached s).ids) (hroom : algo.mustEvict s r = false)
    (hg : d → r.id ∉ s.aout.base.cached.ids) (he : insert s r = .ok s') :
    view s' = (if s.hitOnGhost = true then { view s with am := Spec.TwoQ.serve (Spec.clock 1) (cs - as) (view s).am r }
      else { view s with ain := (r.id, r.size % u32) :: (view s).ain }) := by
  obtain ⟨s'', k1, _, k3, k4⟩ := insert_spec h r hn hroom hg
  rw [he] at k1
  cases k1
  by_cases hh : s.hitOnGhost = true
  · rw [if_pos hh]
    simp only [insert, hh, if_true] at he
    obtain ⟨⟨b, m⟩, m1, m2⟩ := Res.bind_eq_ok.1 he
    cases m2
    have := (AmSim.clock (cs - as) 1).get r h.am m1
    unfold view
    simp only
    rw [this]
  · rw [if_neg hh]
    rcases k4 with ⟨k4, _⟩ | ⟨_, k5, k6⟩
    · exact absurd k4 hh
    · unfold view
      rw [k3, k5, k6]
      rfl

theorem remove_view (h : Inv cs as gs d s) {id : ObjId} {b : Bool} {s' : State} (he : remove s id = .ok (b, s')) :
    Spec.TwoQ.remove (Spec.clock 1) (view s) id = (b, view s') := by
  unfold Spec.TwoQ.remove
  by_cases hf : id ∈ s.ain.objs.map (·.id)
  · obtain ⟨a, k1, k2⟩ := h.ain.remove_hit hf
    have k1' : FIFO.algo.remove s.ain id = .ok (true, a) := k1
    rw [if_pos (show id ∈ Contents.ids (view s).ain by rw [show (view s).ain = cont s.ain.objs from rfl, cont_ids]; exact hf)]
    simp only [remove, k1', Res.bind_ok, if_true] at he
    cases he
    unfold view
    simp only
    rw [k2.objs, delL_cont]
  · have k1 : FIFO.algo.remove s.ain id = .ok (false, s.ain) := h.ain.remove_miss hf
    rw [if_neg (show ¬ id ∈ Contents.ids (view s).ain by rw [show (view s).ain = cont s.ain.objs from rfl, cont_ids]; exact hf)]
    obtain ⟨g, g1, g2, g3⟩ := h.aout.fifoRemove id
    have eo := h.aout.order_remove id g1
    simp only [remove, k1, Res.bind_ok, Bool.false_eq_true, if_false, g1] at he
    by_cases hgm : id ∈ s.aout.base.cached.ids
    · rw [if_pos (show id ∈ Contents.ids (view s).aout from (h.aout.order_ids id).2 hgm)]
      simp only [decide_eq_true hgm, if_true] at he
      cases he
      unfold view Spec.TwoQ.forget
      simp only
      rw [eo]
    · have hgo : ¬ id ∈ Contents.ids (view s).aout := fun hx => hgm ((h.aout.order_ids id).1 hx)
      rw [if_neg hgo]
      rw [filter_ids_eq (show ¬ id ∈ Contents.ids s.aout.order from hgo)] at eo
      simp only [decide_eq_false hgm, Bool.false_eq_true, if_false] at he
      obtain ⟨m, m1, m2, m3⟩ := (MainCache.clock (cs - as) 1).remove id h.am
      rw [m1, Res.bind_ok] at he
      cases he
      by_cases hm : id ∈ s.am.base.cached.ids
      · rw [if_pos (show id ∈ Contents.ids ((Spec.clock 1).contents (view s).am) from (amIds h _).2 hm)]
        rw [decide_eq_true hm] at m1
        have ev := (AmSim.clock (cs - as) 1).remove id h.am hm m1
        simp only [decide_eq_true hm]
        unfold view
        simp only
        rw [eo, ev]
      · rw [if_neg (show ¬ id ∈ Contents.ids ((Spec.clock 1).contents (view s).am) from fun hx => hm ((amIds h _).1 hx))]
        have e2 := (Clock.spec (cs - as) 0 1).removeMiss rfl id h.am.1 (lookup_none_iff'.2 hm)
        rw [m1] at e2
        injection e2 with e2
        injection e2 with _ e2
        rw [e2]
        simp only [decide_eq_false hm]
        unfold view
        simp only
        rw [eo]

end

/-- One call, without client `evict` and `insert`. -/
theorem step_view {cs as gs : Nat} {s : State} {op : Op} (h : Inv cs as gs True s) (hop : Calls { ev := false, ins := false } (fun _ => True) op)
    {b : Bool} {s' : State} (hs : algo.step s op = .ok (b, s')) : Spec.TwoQ.step (Spec.clock 1) cs as gs (view s) op = (b, view s') := by
  cases op with
  | get r =>
    have hs' : algo.get s r = .ok (b, s') := hs
    have hb : view (algo.bump s) = view s := rfl
    have hcp : Inv cs as gs (({ ev := false, ins := false } : Perms).ins = false) s := by simpa using h
    have C := medium (cs := cs) (as := as) gs { ev := false, ins := false } rfl
    show Spec.TwoQ.get (Spec.clock 1) cs as gs (view s) r = _
    by_cases hin : r.id ∈ (cached s).ids
    · obtain ⟨s1, hf, _⟩ := C.findHit r (bump_inv hcp) hin (Fresh.bump trivial hcp)
      rw [get_hit hf] at hs'
      cases hs'
      have e := look_view (bump_inv h) hf
      rw [hb] at e
      unfold Spec.TwoQ.get
      rw [e]
      rfl
    · obtain ⟨s1, hf, hi1, hcase⟩ := C.miss r trivial hcp hin
      have e := look_view (bump_inv h) hf
      rw [hb] at e
      obtain ⟨g, m, k1, k2, k3, k4, k5, k6⟩ := findMiss (bump_inv h) r hin
      rw [show algo.find (algo.bump s) r true = find (algo.bump s) r true from rfl, k1] at hf
      injection hf with hf
      injection hf with _ hf
      have hflag : s1.hitOnGhost = decide (r.id ∈ s.aout.base.cached.ids) := by rw [← hf]; rfl
      have hlen : (cached s1).length = (cached s).length := by rw [← hf]; exact k3.length_eq
      have hcan : algo.canInsert s1 r = (decide (r.size ≤ as), s1) := by
        show (decide (r.size ≤ s1.ain.base.cacheSize), s1) = _
        rw [hi1.ain.csz]
      rw [hcan] at hcase
      simp only at hcase
      rcases hcase with ⟨hno, hg', _⟩ | ⟨hyes, s3, s4, vs, hg', h3i, hrd, hn3, hme3, hins, _, hloop, hp3, hlast⟩
      · have hle : ¬ r.size ≤ as := by simpa using hno
        rw [hg'] at hs'
        cases hs'
        unfold Spec.TwoQ.get
        rw [e]
        simp [hle]
      · have hle : r.size ≤ as := by simpa using hyes
        rw [hg'] at hs'
        cases hs'
        obtain ⟨_, e2, _⟩ := evictLoop_rel r hle _ _ _ hi1 hloop
        rw [hflag] at e2
        have hl := loop_view hle _ (cached s).length s1 s3 hi1 (by omega) hloop
        have hv := insert_view h3i hn3 hme3 hrd.2 hins
        have ec : (Spec.TwoQ.contents (Spec.clock 1) (view s)).length = (cached s).length := (view_perm h).length_eq
        unfold Spec.TwoQ.get
        rw [e]
        simp only [Bool.false_eq_true, if_false, if_pos hle]
        rw [ec, ← hl, hv, e2]
        have hq : r.id ∈ Contents.ids (view s).aout ↔ r.id ∈ s.aout.base.cached.ids := h.aout.order_ids r.id
        by_cases hgm : r.id ∈ s.aout.base.cached.ids
        · rw [if_pos (hq.2 hgm), if_pos (decide_eq_true hgm)]
        · rw [if_neg (fun hx => hgm (hq.1 hx)), if_neg (by simp [hgm])]
  | find r u =>
    cases u with
    | false =>
      have hs' : find s r false = .ok (b, s') := hs
      rw [find_false h] at hs'
      cases hs'
      show (decide _, view s) = _
      congr 1
      exact decide_eq_decide.2 ((view_perm h).map Prod.fst).mem_iff
    | true => exact look_view h hs
  | remove id => exact remove_view h hs
  | evict r => have : ({ ev := false, ins := false } : Perms).ev = true := hop; simp at this
  | insert r => have := hop.1; simp at this

theorem run_view {cs as gs : Nat} : ∀ (ops : List Op) {s s' : State} {out : List Bool}, Inv cs as gs True s →
    (∀ op ∈ ops, Calls { ev := false, ins := false } (fun _ => True) op) → algo.run s ops = .ok (out, s') →
    Spec.TwoQ.run (Spec.clock 1) cs as gs (view s) ops = (out, view s') := by
  intro ops
  induction ops with
  | nil => intro s s' out _ _ h; cases h; rfl
  | cons op ops ih =>
    intro s s' out hi ho h
    simp only [Algo.run] at h
    obtain ⟨⟨b, s1⟩, h1, h2⟩ := Res.bind_eq_ok.1 h
    obtain ⟨⟨bs, s2⟩, h3, h4⟩ := Res.bind_eq_ok.1 h2
    cases h4
    have hop := ho op List.mem_cons_self
    have e := step_view hi hop h1
    have hi' : Inv cs as gs True s1 := by
      have hcp : Inv cs as gs (({ ev := false, ins := false } : Perms).ins = false) s := by simpa using hi
      have := (medium (cs := cs) (as := as) gs { ev := false, ins := false } rfl).reach hcp (ops := [op]) (out := [b]) (s := s1)
        (by intro x hx; rw [List.mem_singleton.1 hx]; exact hop) (by show algo.run s [op] = _; simp [Algo.run, h1])
      simpa using this
    have := ih hi' (fun x hx => ho x (List.mem_cons_of_mem _ hx)) h3
    simp only [Spec.TwoQ.run, e, this]

end LPTwoQ
end Verif
