import Verif.Proof.AmSim
import Verif.Proof.LruList
import Verif.Spec.AdaptiveS3
import Verif.Algo.S3FIFOdv2
/-!
# S3FIFOdv2 follows S3-FIFO with thresholds that follow the frequencies in the main queue
-/

namespace Verif.S3FIFOdv2
open Verif Verif.Spec Verif.Spec.AdaptiveS3
open Verif.Spec.LazyARC (ent size)

/-! ### the ghost queue as a list -/

def ghostList : Option FIFO.State → Contents
  | none => []
  | some g => g.order

structure GG (gs : Nat) (g : Option FIFO.State) (l : Contents) : Prop where
  inv : GhostInv gs g
  list : ghostList g = l

theorem GG.init (gs : Nat) : GG gs (ghostInit gs) [] := by
  refine ⟨ghostInv_init gs, ?_⟩
  unfold ghostInit
  split <;> rfl

theorem GG.remove {gs : Nat} {g : Option FIFO.State} {l : Contents} (h : GG gs g l) (id : ObjId) :
    ∃ g', ghostRemove g id = .ok (decide (id ∈ l.ids), g') ∧ GG gs g' (l.filter (fun x => x.1 ≠ id)) := by
  obtain ⟨hi, rfl⟩ := h
  cases g with
  | none => exact ⟨none, by simp [ghostRemove, ghostList, Contents.ids], hi, by simp [ghostList]⟩
  | some x =>
    have hx := hi.queue x rfl
    obtain ⟨x', h1, h2, h3⟩ := hx.fifoRemove id
    refine ⟨some x', ?_, ⟨hi.pres, fun y hy => by cases hy; exact h2⟩, hx.order_remove id h1⟩
    simp only [ghostRemove, h1, Res.bind_ok]
    congr 2
    rw [decide_eq_decide]
    exact (hx.order_ids id).symm

theorem GG.get {gs : Nat} {g : Option FIFO.State} {l : Contents} (h : GG gs g l) (r : Req) :
    ∃ g', ghostGet g r = .ok g' ∧ GG gs g' (remember gs l (r.id, r.size)) := by
  obtain ⟨hi, rfl⟩ := h
  have hp := hi.pres
  cases g with
  | none =>
    have : gs = 0 := by simpa using hp
    subst this
    exact ⟨none, rfl, hi, by simp [remember, ghostList]⟩
  | some x =>
    have hgs : gs ≠ 0 := by simp at hp; omega
    have hx := hi.queue x rfl
    obtain ⟨b, x', h1, h2, h3⟩ := Sim.step (FIFO.spec gs 0) (FIFO.sim gs 0) (.get r) (sizeOk_zero r) hx.q
    have h1' : FIFO.algo.get x r = .ok (b, x') := h1
    refine ⟨some x', by simp [ghostGet, h1'], ⟨hi.pres, fun y hy => by cases hy; exact ⟨h2, FIFO.adm_get hx.adm h1'⟩⟩, ?_⟩
    have e : tget fifo gs 0 ⟨x.order, .none⟩ r = (b, ⟨x'.order, x'.base.adm⟩) := by
      have := h3
      simp only [tstep, tview, hx.adm] at this
      exact this
    have e' : (tget fifo gs 0 ⟨x.order, .none⟩ ⟨r.id, r.size, 0⟩).2.pol = (tget fifo gs 0 ⟨x.order, .none⟩ r).2.pol := by
      simp only [tget, holds, Spec.fifo, Adm.admit]
    rw [remember, if_neg hgs]
    simp only [ghostList]
    rw [e', e]

/-! ### a FIFO queue with frequencies as a list, oldest object first -/

def item (o : Obj Nat) : Item := ⟨o.id, o.size, o.mt⟩

structure QQ (cs : Nat) (x : QState Nat) (l : List Item) : Prop where
  rep : Rep cs 0 x x.objs
  list : (x.objs.map item).reverse = l

theorem size_eq (l : List Item) : LazyARC.size l = charge 0 (ent l) := bytes_eq_charge 0 (ent l)

@[simp] theorem size_nil : LazyARC.size [] = 0 := rfl
theorem size_cons (x : Item) (l : List Item) : LazyARC.size (x :: l) = x.size + LazyARC.size l := by
  simp only [size_eq, ent, List.map_cons, charge, Item.entry]; omega
theorem size_append (l l' : List Item) : LazyARC.size (l ++ l') = LazyARC.size l + LazyARC.size l' := by
  induction l with
  | nil => simp
  | cons x l ih => rw [List.cons_append, size_cons, size_cons, ih]; omega

theorem ent_append (l l' : List Item) : ent (l ++ l') = ent l ++ ent l' := by simp [ent]
theorem ent_ids (l : List Item) : (ent l).ids = l.map (·.id) := by simp [ent, Contents.ids, Function.comp_def]

section QQ
variable {cs : Nat} {x : QState Nat} {l : List Item}

theorem QQ.of {lo : List (Obj Nat)} (h : Rep cs 0 x lo) (e : (lo.map item).reverse = l) : QQ cs x l := by
  have ho := h.objs
  exact ⟨by rw [ho]; exact h, by rw [ho]; exact e⟩

theorem QQ.init (cs : Nat) : QQ cs (QState.init cs 0 .none) [] := QQ.of (Rep.init cs 0 .none) rfl

theorem QQ.ent (h : QQ cs x l) : (ent l).Perm (cont x.objs) := by
  rw [← h.list, LazyARC.ent, List.map_reverse, List.map_map]
  exact List.reverse_perm _

theorem QQ.cached (h : QQ cs x l) : (LazyARC.ent l).Perm x.base.cached := h.ent.trans h.rep.cached.symm

theorem QQ.ids (h : QQ cs x l) (id : ObjId) : id ∈ x.objs.map (·.id) ↔ id ∈ (LazyARC.ent l).ids := by
  rw [← cont_ids]; exact (h.ent.map Prod.fst).mem_iff.symm

theorem QQ.occ (h : QQ cs x l) : x.base.occ = (LazyARC.size l : Nat) := by rw [h.rep.occ, size_eq, charge_perm h.ent]

theorem QQ.len (h : QQ cs x l) : x.base.tbl.length = l.length := by
  rw [h.rep.perm.length_eq, ← h.list]; simp

theorem QQ.nObj (h : QQ cs x l) : x.base.nObj = (l.length : Nat) := by
  rw [h.rep.nObj, ← h.list]; simp

theorem QQ.csz (h : QQ cs x l) : x.base.cacheSize = cs := h.rep.csz

theorem QQ.small (h : QQ cs x l) : ∀ y ∈ l, y.size < u32 := by
  intro y hy
  rw [← h.list, List.mem_reverse, List.mem_map] at hy
  obtain ⟨o, ho, rfl⟩ := hy
  exact h.rep.small o ho

theorem QQ.freqSum (h : QQ cs x l) : S3FIFO.freqSum x.base = (l.map Item.cnt).sum := by
  rw [S3FIFO.freqSum, (h.rep.perm.map _).sum_nat, ← h.list, List.map_reverse, List.map_map, List.sum_reverse]
  rfl

theorem QQ.peek (h : QQ cs x l) (r : Req) : (x.findFIFO r false).1.isSome = decide (r.id ∈ (LazyARC.ent l).ids) := by
  rw [(h.rep.findFIFO_false r).1, decide_eq_decide, h.ids]

theorem QQ.miss (h : QQ cs x l) {r : Req} (hn : r.id ∉ (LazyARC.ent l).ids) : x.findFIFO r true = (none, x) :=
  h.rep.findFIFO_miss (fun hh => hn ((h.ids r.id).1 hh))

theorem QQ.hit (h : QQ cs x l) {r : Req} (hm : r.id ∈ (LazyARC.ent l).ids) :
    ∃ o x', x.findFIFO r true = (some o, x') ∧ QQ cs (x'.modify r.id S3FIFO.hit) (AdaptiveS3.hit r.id l) ∧
      ∃ y ∈ l, y.id = r.id ∧ y.cnt = o.mt := by
  obtain ⟨o, h1, h2, h3⟩ := h.rep.findFIFO_hit ((h.ids r.id).2 hm)
  refine ⟨_, _, h3, ?_, item o, ?_, h2, rfl⟩
  · have k := (h.rep.modify r.id (touch r) (fun _ => rfl) (fun _ => rfl)).modify r.id S3FIFO.hit (fun _ => rfl) (fun _ => rfl)
    refine QQ.of k ?_
    rw [← h.list, AdaptiveS3.hit, List.map_reverse]
    simp only [modL, List.map_map]
    congr 1
    apply List.map_congr_left
    intro o' _
    simp only [Function.comp, item]
    by_cases he : o'.id = r.id
    · simp only [he, if_true]
      rw [if_pos (show (touch r o').id = r.id from he)]
      simp only [S3FIFO.hit, touch, he]
    · simp only [he, if_false]
  · rw [← h.list, List.mem_reverse]; exact List.mem_map_of_mem h1

theorem QQ.insert (h : QQ cs x l) (r : Req) (hn : r.id ∉ (LazyARC.ent l).ids) (hs : r.size < u32) :
    ∃ x', QState.insert 0 x r = .ok x' ∧ QQ cs x' (l ++ [⟨r.id, r.size, 0⟩]) ∧
      ∀ (k : Nat) (m : Int), QQ cs (x'.modify r.id (fun o => { o with mt := k, miscFreq := m })) (l ++ [⟨r.id, r.size, k⟩]) := by
  have hn' : r.id ∉ x.objs.map (·.id) := fun hh => hn ((h.ids r.id).1 hh)
  obtain ⟨x', h1, h2⟩ := h.rep.insert 0 r hn' (sizeOk_zero r)
  refine ⟨x', h1, QQ.of h2 ?_, fun k m => QQ.of (h2.modify r.id _ (fun _ => rfl) (fun _ => rfl)) ?_⟩
  · rw [← h.list]; simp [item, Obj.ofReq, Nat.mod_eq_of_lt hs]
  · rw [← h.list]
    simp only [modL, List.map_cons, Obj.ofReq, List.reverse_cons, if_true, item, Nat.mod_eq_of_lt hs, List.map_map]
    congr 2
    apply List.map_congr_left
    intro o ho
    have : o.id ≠ r.id := fun e => hn' (List.mem_map.2 ⟨o, ho, e⟩)
    simp [Function.comp, this, item]

theorem QQ.head {y : Item} (h : QQ cs x (y :: l)) :
    ∃ o x', x.tailObj = .ok o ∧ item o = y ∧ QState.remove x o.id = .ok (true, x') ∧ QQ cs x' l := by
  rcases List.eq_nil_or_concat' x.objs with e | ⟨c, o, e⟩
  · have := h.list; rw [e] at this; simp at this
  · have hl := h.list
    rw [e] at hl
    simp only [List.map_append, List.map_cons, List.map_nil, List.reverse_append, List.reverse_cons, List.reverse_nil, List.nil_append, List.singleton_append,
      List.cons.injEq] at hl
    have hm : o.id ∈ x.objs.map (·.id) := by rw [e]; simp
    obtain ⟨x', h1, h2⟩ := h.rep.remove_hit hm
    have hnd := h.rep.nodup
    rw [e] at hnd
    have e2 : delL o.id x.objs = c := by rw [e]; exact delL_last hnd
    rw [e2] at h2
    exact ⟨o, x', h.rep.tailObj e, hl.1, h1, QQ.of h2 hl.2⟩

end QQ

/-! ### the counters of objects by frequency -/

theorem log2_lt {c k : Nat} (hk : 0 < k) : Nat.log2 c < k ↔ c < 2 ^ k := by
  by_cases h : c = 0
  · subst h; simp [hk, Nat.two_pow_pos]
  · exact Nat.log2_lt h

/-- the objects by the logarithm of their frequencies -/
def byLog (l : List Item) (j : Nat) : Nat := l.countP (fun x => decide (Nat.log2 x.cnt = j))

theorem byLog_cons (x : Item) (l : List Item) (j : Nat) : byLog (x :: l) j = byLog l j + if j = Nat.log2 x.cnt then 1 else 0 := by
  simp only [byLog, List.countP_cons, decide_eq_true_eq]
  congr 1
  by_cases h : Nat.log2 x.cnt = j
  · rw [if_pos h, if_pos h.symm]
  · rw [if_neg h, if_neg (fun e => h e.symm)]

theorem byLog_perm {l l' : List Item} (h : l.Perm l') (j : Nat) : byLog l j = byLog l' j := h.countP_eq _

theorem byLog_snoc (x : Item) (l : List Item) (j : Nat) : byLog (l ++ [x]) j = byLog l j + if j = Nat.log2 x.cnt then 1 else 0 := by
  rw [byLog_perm (List.perm_append_singleton x l), byLog_cons]

/-- `h` counts the objects of `l` -/
def Counts (h : Nat → Int) (l : List Item) : Prop := ∀ j, h j = (byLog l j : Nat)

theorem count_add {h : Nat → Int} {l l' : List Item} {x : Item} (hc : Counts h l) (hp : l'.Perm (x :: l)) (hx : x.cnt < 2 ^ 32) :
    ∃ h', count h x.cnt 1 = .ok h' ∧ Counts h' l' := by
  have : Nat.log2 x.cnt < 32 := (log2_lt (by decide)).2 hx
  refine ⟨_, by simp only [count, this, if_true]; rfl, ?_⟩
  intro j
  rw [byLog_perm hp, byLog_cons]
  by_cases hj : j = Nat.log2 x.cnt <;> simp [hj, hc _]

theorem count_sub {h : Nat → Int} {l l' : List Item} {x : Item} (hc : Counts h l) (hp : l.Perm (x :: l')) (hx : x.cnt < 2 ^ 32) :
    ∃ h', count h x.cnt (-1) = .ok h' ∧ Counts h' l' := by
  have : Nat.log2 x.cnt < 32 := (log2_lt (by decide)).2 hx
  refine ⟨_, by simp only [count, this, if_true]; rfl, ?_⟩
  intro j
  have := hc j
  rw [byLog_perm hp, byLog_cons] at this
  by_cases hj : j = Nat.log2 x.cnt
  · simp only [hj, if_true] at this ⊢; omega
  · simp only [hj, if_false] at this ⊢; omega

theorem below_succ (l : List Item) (k : Nat) :
    l.countP (fun x => decide (Nat.log2 x.cnt < k + 1)) = l.countP (fun x => decide (Nat.log2 x.cnt < k)) + byLog l k := by
  induction l with
  | nil => rfl
  | cons x l ih =>
    simp only [byLog, List.countP_cons, decide_eq_true_eq] at ih ⊢
    by_cases h1 : Nat.log2 x.cnt < k
    · rw [if_pos (by omega), if_pos h1, if_neg (by omega)]; omega
    · by_cases h2 : Nat.log2 x.cnt = k
      · rw [if_pos (by omega), if_neg h1, if_pos h2]; omega
      · rw [if_neg (by omega), if_neg h1, if_neg h2]; omega

theorem sum_below {h : Nat → Int} {l : List Item} (hc : Counts h l) (k : Nat) :
    ((List.range k).map h).sum = (l.countP (fun x => decide (Nat.log2 x.cnt < k)) : Nat) := by
  induction k with
  | zero => simp
  | succ k ih =>
    rw [List.range_succ, List.map_append, List.sum_append, ih, below_succ]
    simp [hc k]

theorem below_all {l : List Item} {k : Nat} (hk : 0 < k) (h : ∀ x ∈ l, x.cnt < 2 ^ k) : l.countP (fun x => decide (Nat.log2 x.cnt < k)) = l.length := by
  rw [List.countP_eq_length]
  intro x hx
  simpa using (log2_lt hk).2 (h x hx)

theorem enough_iff (l : List Item) (i : Nat) : Enough l i ↔ l.length * 9 / 10 < l.countP (fun x => decide (Nat.log2 x.cnt < i + 1)) := by
  unfold Enough
  have : (fun x : Item => decide (x.cnt < 2 ^ (i + 1))) = fun x => decide (Nat.log2 x.cnt < i + 1) := by
    funext x; rw [decide_eq_decide]; exact (log2_lt (Nat.succ_pos i)).symm
  rw [this]

theorem enough_30 {l : List Item} (hne : l ≠ []) (hb : ∀ x ∈ l, x.cnt < 2 ^ 31) : Enough l 30 := by
  have hlen : 0 < l.length := List.length_pos_of_ne_nil hne
  rw [enough_iff, below_all (by decide) hb]
  omega

theorem pick_spec {h : Nat → Int} {l : List Item} (hc : Counts h l) (hne : l ≠ []) (hb : ∀ x ∈ l, x.cnt < 2 ^ 31) (d : Nat) :
    ∀ n, 2 ≤ n → n ≤ 32 → pick h ((l.length : Nat) * 9 / 10) n (l.countP (fun x => decide (Nat.log2 x.cnt < 32 - n)) : Nat) =
      .ok (some (threshold l d (32 - n) n)) := by
  intro n
  induction n with
  | zero => intro h0; omega
  | succ n ih =>
    intro h2 hn
    have e1 : 32 - (n + 1) = 31 - n := by omega
    have hs := below_succ l (31 - n)
    have hiff := enough_iff l (31 - n)
    have hacc : ((l.countP (fun x => decide (Nat.log2 x.cnt < 31 - n)) : Nat) : Int) + h (31 - n) = (l.countP (fun x => decide (Nat.log2 x.cnt < 31 - n + 1)) : Nat) := by
      rw [hs, hc]; push_cast; rfl
    rw [e1]
    simp only [pick, threshold, hacc]
    by_cases he : Enough l (31 - n)
    · rw [if_pos he]
      have hlt := hiff.1 he
      rw [if_pos (by omega), if_pos (by omega)]
    · rw [if_neg he]
      have hlt := mt hiff.2 he
      rw [if_neg (by omega)]
      have e2 : 31 - n + 1 = 32 - n := by omega
      have hn2 : 2 ≤ n := by
        by_contra hcon
        have : 31 - n = 30 := by omega
        rw [this] at he
        exact he (enough_30 hne hb)
      rw [e2]
      exact ih hn2 (by omega)

/-! ### the state -/

structure Rep (K : Conf) (s : State) (t : St) : Prop where
  csz : s.cacheSize = K.cs
  small : QQ K.fs s.fifo t.small
  main : QQ (K.cs - K.fs) s.main t.main
  ghost : GG K.gs s.ghost t.ghost
  move : s.move = t.move
  keep : s.keep = t.keep
  n : s.nReq = t.n
  hist : Counts s.hist t.main
  pos : 1 ≤ t.keep
  nodup : ((t.small ++ t.main).map (·.id)).Nodup
  cnt : ∀ x ∈ t.small ++ t.main, x.cnt ≤ t.n
  cap : LazyARC.size t.small + LazyARC.size t.main ≤ K.cs

theorem Rep.init (K : Conf) (mv : Nat) : Rep K (init K.cs K.fs K.gs mv) { move := mv } :=
  ⟨rfl, QQ.init _, QQ.init _, GG.init _, rfl, rfl, rfl, fun _ => rfl, Nat.le_refl 1, List.nodup_nil, (by intro x h; cases h), Nat.zero_le _⟩

section
variable {K : Conf} {s : State} {t : St}

theorem toReq_id (o : Obj Nat) : o.toReq.id = o.id := rfl
theorem toReq_size (o : Obj Nat) : o.toReq.size = o.size := rfl

theorem evictMain_spec : ∀ (n : Nat) (s : State) (t : St), Rep K s t → t.n < 2 ^ 31 → 0 < LazyARC.size t.main → (t.main.map Item.cnt).sum < n →
    ∃ s', evictMain n s = .ok s' ∧ Rep K s' { t with main := rotate t.keep t.main } ∧ (rotate t.keep t.main).length + 1 = t.main.length ∧
      s'.hitOnGhost = s.hitOnGhost := by
  intro n
  induction n with
  | zero => intro s t h hn hp hs; omega
  | succ n ih =>
    intro s t h hn hp hs
    cases hl : t.main with
    | nil => rw [hl] at hp; simp at hp
    | cons x l =>
      have hm := h.main
      rw [hl] at hm
      obtain ⟨o, m, h1, h2, h3, h4⟩ := hm.head
      have hocc : s.main.base.occ > 0 := by rw [h.main.occ]; omega
      have hxn : x.cnt ≤ t.n := h.cnt x (by rw [hl]; simp)
      have hmt : o.mt = x.cnt := by rw [← h2]; rfl
      have hid : o.id = x.id := by rw [← h2]; rfl
      have hsz : o.size = x.size := by rw [← h2]; rfl
      have hc := h.hist
      rw [hl] at hc
      obtain ⟨c1, hc1, hc2⟩ := count_sub hc (List.Perm.refl _) (show x.cnt < 2 ^ 32 by omega)
      have hnd := h.nodup
      have hcnt := h.cnt
      have hcap := h.cap
      rw [hl] at hnd hcnt hcap
      rw [rotate]
      simp only [evictMain, hocc, if_true, h1, Res.bind_ok, hmt, hc1]
      by_cases hk : x.cnt ≥ s.keep
      · have hk' : ¬ (x.cnt = 0 ∨ x.cnt < t.keep) := by have := h.keep; have := h.pos; omega
        rw [if_pos hk, if_neg hk']
        have hnew : x.id ∉ (ent l).ids := by
          rw [ent_ids]
          rw [List.map_append, List.nodup_append] at hnd
          exact (List.nodup_cons.1 hnd.2.1).1
        have hxs : x.size < u32 := hm.small x (by simp)
        obtain ⟨m', k1, _, k3⟩ := h4.insert o.toReq (by rw [toReq_id, hid]; exact hnew) (by rw [toReq_size, hsz]; exact hxs)
        have k3' := k3 (min x.cnt 3 - 1) o.miscFreq
        rw [toReq_id, toReq_size, hid, hsz] at k3'
        obtain ⟨c2, hc3, hc4⟩ := count_add (x := ⟨x.id, x.size, min x.cnt 3 - 1⟩) (l' := l ++ [⟨x.id, x.size, min x.cnt 3 - 1⟩]) hc2
          (List.perm_append_singleton _ l) (show min x.cnt 3 - 1 < 2 ^ 32 by omega)
        simp only [h3, Res.bind_ok, k1]
        have hc3' : count c1 (min x.cnt 3 - 1) 1 = .ok c2 := hc3
        rw [hc3', Res.bind_ok, hid]
        have hp' : (t.small ++ (l ++ [(⟨x.id, x.size, min x.cnt 3 - 1⟩ : Item)])).map (·.id) |>.Perm ((t.small ++ x :: l).map (·.id)) := by
          simp only [List.map_append, List.map_cons, List.map_nil]
          exact List.Perm.append_left _ (List.perm_append_singleton _ _)
        have hr : Rep K { s with main := m'.modify x.id (fun y => { y with mt := min x.cnt 3 - 1, miscFreq := o.miscFreq }), hist := c2 }
            { t with main := l ++ [⟨x.id, x.size, min x.cnt 3 - 1⟩] } :=
          ⟨h.csz, h.small, k3', h.ghost, h.move, h.keep, h.n, hc4, h.pos, hp'.nodup_iff.2 hnd, (by
              intro y hy
              simp only [List.mem_append, List.mem_singleton] at hy
              rcases hy with hy | hy | rfl
              · exact hcnt y (by simp [hy])
              · exact hcnt y (by simp [hy])
              · show min x.cnt 3 - 1 ≤ t.n; omega), (by
              show LazyARC.size t.small + LazyARC.size (l ++ [_]) ≤ K.cs
              rw [size_append, size_cons, size_nil]
              rw [size_cons] at hcap
              show LazyARC.size t.small + (LazyARC.size l + (x.size + 0)) ≤ K.cs
              omega)⟩
        obtain ⟨s', j1, j2, j3, j4⟩ := ih _ _ hr hn (by
            show 0 < LazyARC.size (l ++ [_])
            rw [hl, size_cons] at hp
            rw [size_append, size_cons, size_nil]
            show 0 < LazyARC.size l + (x.size + 0)
            omega) (by
            rw [hl] at hs
            simp only [List.map_append, List.map_cons, List.map_nil, List.sum_append, List.sum_cons, List.sum_nil] at hs ⊢
            have := h.pos; have := h.keep
            omega)
        refine ⟨s', j1, j2, ?_, j4⟩
        simp only [List.length_append, List.length_cons, List.length_nil] at j3 ⊢
        exact j3
      · have hk' : x.cnt = 0 ∨ x.cnt < t.keep := by have := h.keep; omega
        rw [if_neg hk, if_pos hk']
        simp only [h3, Res.bind_ok, if_true]
        have hsub : (t.small ++ l).Sublist (t.small ++ x :: l) := List.Sublist.append_left (List.sublist_cons_self x l) _
        refine ⟨_, rfl, ⟨h.csz, h.small, h4, h.ghost, h.move, h.keep, h.n, hc2, h.pos, (hsub.map _).nodup hnd, fun y hy => hcnt y (hsub.subset hy), ?_⟩, rfl, rfl⟩
        rw [size_cons] at hcap
        show LazyARC.size t.small + LazyARC.size l ≤ K.cs
        omega

theorem evictFifo_spec : ∀ (n : Nat) (s : State) (t : St), Rep K s t → t.n < 2 ^ 31 → t.small.length ≤ n →
    ∃ s', evictFifo n s = .ok s' ∧ Rep K s' (sift K.gs t t.small) ∧
      2 * (sift K.gs t t.small).small.length + (sift K.gs t t.small).main.length + (if 0 < LazyARC.size t.small then 1 else 0) ≤ 2 * t.small.length + t.main.length ∧
      s'.hitOnGhost = s.hitOnGhost := by
  intro n
  induction n with
  | zero =>
    intro s t h hn hlen
    have hl : t.small = [] := List.length_eq_zero_iff.1 (Nat.le_zero.1 hlen)
    have hocc : ¬ s.fifo.base.occ > 0 := by rw [h.small.occ, hl]; simp
    have e : sift K.gs t [] = t := by rw [sift, ← hl]
    refine ⟨s, by simp only [evictFifo, hocc, if_false], ?_, ?_, rfl⟩
    · rw [hl, e]; exact h
    · rw [hl, e, hl]; simp
  | succ n ih =>
    intro s t h hn hlen
    cases hl : t.small with
    | nil =>
      have hocc : ¬ s.fifo.base.occ > 0 := by rw [h.small.occ, hl]; simp
      have e : sift K.gs t [] = t := by rw [sift, ← hl]
      refine ⟨s, by simp only [evictFifo, hocc, if_false], ?_, ?_, rfl⟩
      · rw [e]; exact h
      · rw [e, hl]; simp
    | cons x l =>
      rw [sift]
      by_cases hz : LazyARC.size (x :: l) = 0
      · have hocc : ¬ s.fifo.base.occ > 0 := by rw [h.small.occ, hl]; omega
        rw [if_pos hz, ← hl]
        refine ⟨s, by simp only [evictFifo, hocc, if_false], h, ?_, rfl⟩
        rw [hl, if_neg (by omega)]
        simp
      · have hocc : s.fifo.base.occ > 0 := by rw [h.small.occ, hl]; omega
        have hm := h.small
        rw [hl] at hm
        obtain ⟨o, f, h1, h2, h3, h4⟩ := hm.head
        have hxn : x.cnt ≤ t.n := h.cnt x (by rw [hl]; simp)
        have hmt : o.mt = x.cnt := by rw [← h2]; rfl
        have hid : o.id = x.id := by rw [← h2]; rfl
        have hsz : o.size = x.size := by rw [← h2]; rfl
        have hlog : Nat.log2 x.cnt < 32 := (log2_lt (by decide)).2 (by omega)
        have hnd := h.nodup
        have hcnt := h.cnt
        have hcap := h.cap
        rw [hl] at hnd hcnt hcap
        rw [size_cons] at hcap
        have hra : S3FIFO.removeAsserted s.fifo o.id = .ok f := by simp [S3FIFO.removeAsserted, h3]
        rw [if_neg hz, if_pos (show 0 < LazyARC.size (x :: l) by omega)]
        simp only [evictFifo, hocc, if_true, h1, Res.bind_ok, hmt, hlog, hra]
        by_cases hk : x.cnt ≥ s.move
        · have hk' : ¬ x.cnt < t.move := by have := h.move; omega
          rw [if_pos hk, if_neg hk']
          have hnew : x.id ∉ (ent t.main).ids := by
            rw [ent_ids]
            rw [List.map_append, List.nodup_append] at hnd
            intro hh
            exact hnd.2.2 x.id (by simp) x.id hh rfl
          have hxs : x.size < u32 := hm.small x (by simp)
          obtain ⟨m', k1, _, k3⟩ := h.main.insert o.toReq (by rw [toReq_id, hid]; exact hnew) (by rw [toReq_size, hsz]; exact hxs)
          have k3' := k3 0 o.miscFreq
          rw [toReq_id, toReq_size, hid, hsz] at k3'
          obtain ⟨c2, hc3, hc4⟩ := count_add (x := ⟨x.id, x.size, 0⟩) (l' := t.main ++ [⟨x.id, x.size, 0⟩]) h.hist
            (List.perm_append_singleton _ t.main) (show 0 < 2 ^ 32 by decide)
          have hc3' : count s.hist 0 1 = .ok c2 := hc3
          simp only [k1, Res.bind_ok, hc3', hid]
          have hp' : ((l ++ (t.main ++ [(⟨x.id, x.size, 0⟩ : Item)])).map (·.id)).Perm ((x :: l ++ t.main).map (·.id)) := by
            rw [← List.append_assoc, List.map_append, List.cons_append, List.map_cons]
            exact List.perm_append_singleton _ _
          have hr : Rep K { s with main := m'.modify x.id (fun y => { y with mt := 0, miscFreq := o.miscFreq }), fifo := f, hist := c2 }
              { t with small := l, main := t.main ++ [⟨x.id, x.size, 0⟩] } :=
            ⟨h.csz, h4, k3', h.ghost, h.move, h.keep, h.n, hc4, h.pos, hp'.nodup_iff.2 hnd, (by
                intro y hy
                simp only [List.mem_append, List.mem_singleton] at hy
                rcases hy with hy | hy | rfl
                · exact hcnt y (by simp [hy])
                · exact hcnt y (by simp [hy])
                · exact Nat.zero_le _), (by
                show LazyARC.size l + LazyARC.size (t.main ++ [_]) ≤ K.cs
                rw [size_append, size_cons, size_nil]
                show LazyARC.size l + (LazyARC.size t.main + (x.size + 0)) ≤ K.cs
                omega)⟩
          obtain ⟨s', j1, j2, j3, j4⟩ := ih _ _ hr hn (by rw [hl] at hlen; simpa using hlen)
          have es : ∀ l' (u : St), sift K.gs { u with small := l' } l = sift K.gs u l := by
            have : ∀ (l : List Item) (l' : List Item) (u : St), sift K.gs { u with small := l' } l = sift K.gs u l := by
              intro l
              induction l with
              | nil => intro l' u; rfl
              | cons y l ihl =>
                intro l' u
                simp only [sift]
                split
                · rfl
                · split
                  · rfl
                  · exact ihl l' { u with main := u.main ++ [⟨y.id, y.size, 0⟩] }
            exact this l
          have es' := es l { t with main := t.main ++ [⟨x.id, x.size, 0⟩] }
          simp only at es' j2 j3
          rw [es'] at j2 j3
          refine ⟨s', j1, j2, ?_, j4⟩
          simp only [List.length_append, List.length_cons, List.length_nil] at j3 ⊢
          omega
        · have hk' : x.cnt < t.move := by have := h.move; omega
          rw [if_neg hk, if_pos hk']
          obtain ⟨g, g1, g2⟩ := h.ghost.get o.toReq
          have hsub : (l ++ t.main).Sublist (x :: l ++ t.main) := List.sublist_cons_self x _
          simp only [g1, Res.bind_ok]
          rw [toReq_id, toReq_size, hid, hsz] at g2
          refine ⟨_, rfl, ⟨h.csz, h4, h.main, g2, h.move, h.keep, h.n, h.hist, h.pos, (hsub.map _).nodup hnd, fun y hy => hcnt y (hsub.subset hy), ?_⟩, ?_, rfl⟩
          · show LazyARC.size l + LazyARC.size t.main ≤ K.cs
            omega
          · simp only [List.length_cons]; omega

/-- ids of cached objects -/
def ids (t : St) : List ObjId := (t.small ++ t.main).map (·.id)

theorem mem_ids (t : St) (i : ObjId) : i ∈ ids t ↔ i ∈ (ent t.small).ids ∨ i ∈ (ent t.main).ids := by
  rw [ids, List.map_append, List.mem_append, ent_ids, ent_ids]

theorem rotate_ids (k : Nat) (l : List Item) : ∀ i ∈ (rotate k l).map (·.id), i ∈ l.map (·.id) := by
  induction l using rotate.induct (keep := k) with
  | case1 => rw [rotate]; simp
  | case2 x l h => rw [rotate, if_pos h]; intro i hi; simp only [List.map_cons, List.mem_cons]; exact Or.inr hi
  | case3 x l h ih =>
    rw [rotate, if_neg h]
    intro i hi
    have := ih i hi
    simp only [List.map_append, List.map_cons, List.map_nil, List.mem_append, List.mem_cons, List.not_mem_nil, or_false] at this ⊢
    exact this.symm

theorem sift_ids (gs : Nat) (l : List Item) : ∀ t : St, (sift gs t l).n = t.n ∧ (sift gs t l).keep = t.keep ∧ (sift gs t l).move = t.move ∧
    ∀ i ∈ ids (sift gs t l), i ∈ l.map (·.id) ∨ i ∈ t.main.map (·.id) := by
  induction l with
  | nil => intro t; refine ⟨rfl, rfl, rfl, fun i hi => ?_⟩; simp only [sift, ids, List.nil_append] at hi; exact Or.inr hi
  | cons x l ih =>
    intro t
    simp only [sift]
    split
    · refine ⟨rfl, rfl, rfl, fun i hi => ?_⟩
      simp only [ids, List.map_append, List.mem_append] at hi; exact hi
    · split
      · refine ⟨rfl, rfl, rfl, fun i hi => ?_⟩
        simp only [ids, List.map_append, List.mem_append, List.map_cons, List.mem_cons] at hi ⊢
        rcases hi with hi | hi
        · exact Or.inl (Or.inr hi)
        · exact Or.inr hi
      · obtain ⟨h1, h2, h3, h4⟩ := ih { t with main := t.main ++ [⟨x.id, x.size, 0⟩] }
        refine ⟨h1, h2, h3, fun i hi => ?_⟩
        have := h4 i hi
        simp only [List.map_append, List.mem_append, List.map_cons, List.map_nil, List.mem_cons, List.not_mem_nil, or_false] at this ⊢
        rcases this with h | h | h
        · exact Or.inl (Or.inr h)
        · exact Or.inr h
        · exact Or.inl (Or.inl h)

/-- what an eviction leaves alone -/
theorem evict_frame (t : St) : (AdaptiveS3.evict K t).n = t.n ∧ (AdaptiveS3.evict K t).keep = t.keep ∧ (AdaptiveS3.evict K t).move = t.move ∧
    ∀ i ∈ ids (AdaptiveS3.evict K t), i ∈ ids t := by
  unfold AdaptiveS3.evict
  split
  · refine ⟨rfl, rfl, rfl, fun i hi => ?_⟩
    simp only [ids, List.map_append, List.mem_append] at hi ⊢
    rcases hi with hi | hi
    · exact Or.inl hi
    · exact Or.inr (rotate_ids _ _ i hi)
  · obtain ⟨h1, h2, h3, h4⟩ := sift_ids K.gs t.small t
    refine ⟨h1, h2, h3, fun i hi => ?_⟩
    simp only [ids, List.map_append, List.mem_append] at hi h4 ⊢
    exact h4 i hi

theorem Rep.evict_spec (h : Rep K s t) (hn : t.n < 2 ^ 31) (hp : 0 < LazyARC.size t.small + LazyARC.size t.main) :
    ∃ s', evict s = .ok s' ∧ Rep K s' (AdaptiveS3.evict K t) ∧
      2 * (AdaptiveS3.evict K t).small.length + (AdaptiveS3.evict K t).main.length < 2 * t.small.length + t.main.length ∧ s'.hitOnGhost = s.hitOnGhost := by
  have h1 := h.main.occ
  have h2 := h.small.occ
  have h3 := h.main.csz
  unfold S3FIFOdv2.evict AdaptiveS3.evict
  by_cases hc : LazyARC.size t.main > K.cs - K.fs ∨ LazyARC.size t.small = 0
  · have hc' : s.main.base.occ > (s.main.base.cacheSize : Int) ∨ s.fifo.base.occ = 0 := by omega
    rw [if_pos hc', if_pos hc, h.main.freqSum]
    obtain ⟨s', j1, j2, j3, j4⟩ := evictMain_spec _ s t h hn (by omega) (Nat.lt_succ_self _)
    refine ⟨s', j1, j2, ?_, j4⟩
    simp only
    omega
  · have hc' : ¬ (s.main.base.occ > (s.main.base.cacheSize : Int) ∨ s.fifo.base.occ = 0) := by omega
    rw [if_neg hc', if_neg hc, h.small.len]
    obtain ⟨s', j1, j2, j3, j4⟩ := evictFifo_spec _ s t h hn (Nat.le_refl _)
    rw [if_pos (by omega)] at j3
    exact ⟨s', j1, j2, by omega, j4⟩

theorem Rep.mustEvict (h : Rep K s t) (r : Req) : algo.mustEvict s r = decide (¬ LazyARC.size t.small + LazyARC.size t.main + r.size ≤ K.cs) := by
  unfold Algo.mustEvict
  rw [decide_eq_decide]
  show s.fifo.base.occ + s.main.base.occ + (r.size : Int) + ((0 : Nat) : Int) > (s.cacheSize : Int) ↔ _
  rw [h.small.occ, h.main.occ, h.csz]
  omega

theorem room_frame (need : Nat) : ∀ n (t : St), (room K need n t).n = t.n ∧ ∀ i ∈ ids (room K need n t), i ∈ ids t := by
  intro n
  induction n with
  | zero => intro t; exact ⟨rfl, fun _ h => h⟩
  | succ n ih =>
    intro t
    simp only [room]
    split
    · exact ⟨rfl, fun _ h => h⟩
    · have h1 := ih (AdaptiveS3.evict K t)
      have h2 := evict_frame (K := K) t
      exact ⟨h1.1.trans h2.1, fun i hi => h2.2.2.2 i (h1.2 i hi)⟩

theorem room_spec (r : Req) (hr : r.size ≤ K.cs) : ∀ (n : Nat) (s : State) (t : St), Rep K s t → t.n < 2 ^ 31 → 2 * t.small.length + t.main.length ≤ n →
    ∃ s', algo.evictLoop r n s = .ok s' ∧ Rep K s' (room K r.size n t) ∧
      LazyARC.size (room K r.size n t).small + LazyARC.size (room K r.size n t).main + r.size ≤ K.cs ∧ s'.hitOnGhost = s.hitOnGhost := by
  intro n
  induction n with
  | zero =>
    intro s t h hn hm
    have e1 : t.small = [] := List.length_eq_zero_iff.1 (by omega)
    have e2 : t.main = [] := List.length_eq_zero_iff.1 (by omega)
    have hle : LazyARC.size t.small + LazyARC.size t.main + r.size ≤ K.cs := by rw [e1, e2]; simpa using hr
    refine ⟨s, ?_, h, hle, rfl⟩
    simp only [Algo.evictLoop, h.mustEvict r, decide_eq_false (not_not.2 hle), Bool.false_eq_true, if_false]
  | succ n ih =>
    intro s t h hn hm
    by_cases hle : LazyARC.size t.small + LazyARC.size t.main + r.size ≤ K.cs
    · simp only [room, if_pos hle]
      refine ⟨s, ?_, h, hle, rfl⟩
      simp only [Algo.evictLoop, h.mustEvict r, decide_eq_false (not_not.2 hle), Bool.false_eq_true, if_false]
    · simp only [room, if_neg hle]
      obtain ⟨s1, j1, j2, j3, j4⟩ := h.evict_spec hn (by omega)
      obtain ⟨s', k1, k2, k3, k4⟩ := ih s1 _ j2 (by rw [(evict_frame t).1]; exact hn) (by omega)
      refine ⟨s', ?_, k2, k3, k4.trans j4⟩
      have j1' : algo.evict s r = .ok s1 := j1
      simp only [Algo.evictLoop, h.mustEvict r, decide_eq_true hle, if_true, j1', Res.bind_ok, k1]

/-! ### find, insert -/

theorem hit_ids (id : ObjId) (l : List Item) : (AdaptiveS3.hit id l).map (·.id) = l.map (·.id) := by
  simp only [AdaptiveS3.hit, List.map_map]
  apply List.map_congr_left
  intro x _
  simp only [Function.comp]
  split <;> rfl

theorem hit_size (id : ObjId) (l : List Item) : LazyARC.size (AdaptiveS3.hit id l) = LazyARC.size l := by
  induction l with
  | nil => rfl
  | cons x l ih =>
    simp only [AdaptiveS3.hit, List.map_cons] at ih ⊢
    rw [size_cons, size_cons, ih]
    split <;> rfl

theorem hit_cnt {id : ObjId} {l : List Item} {n : Nat} (h : ∀ x ∈ l, x.cnt ≤ n) : ∀ x ∈ AdaptiveS3.hit id l, x.cnt ≤ n + 1 := by
  intro x hx
  simp only [AdaptiveS3.hit, List.mem_map] at hx
  obtain ⟨y, hy, rfl⟩ := hx
  have := h y hy
  split
  · show y.cnt + 1 ≤ n + 1; omega
  · omega

/-- a hit moves one object to the next frequency -/
theorem hit_perm {l : List Item} {y : Item} (hnd : (l.map (·.id)).Nodup) (hy : y ∈ l) :
    ∃ rest, l.Perm (y :: rest) ∧ (AdaptiveS3.hit y.id l).Perm (⟨y.id, y.size, y.cnt + 1⟩ :: rest) := by
  induction l with
  | nil => cases hy
  | cons x l ih =>
    simp only [List.map_cons, List.nodup_cons] at hnd
    rcases List.mem_cons.1 hy with rfl | hy
    · refine ⟨l, List.Perm.refl _, ?_⟩
      simp only [AdaptiveS3.hit, List.map_cons, if_true]
      have : l.map (fun x => if x.id = y.id then (⟨x.id, x.size, x.cnt + 1⟩ : Item) else x) = l := by
        have : l.map (fun x => if x.id = y.id then (⟨x.id, x.size, x.cnt + 1⟩ : Item) else x) = l.map id := by
          apply List.map_congr_left
          intro z hz
          rw [if_neg (fun e => hnd.1 (by rw [← e]; exact List.mem_map_of_mem hz))]; rfl
        rw [this, List.map_id]
      rw [this]
    · obtain ⟨rest, h1, h2⟩ := ih hnd.2 hy
      have hne : x.id ≠ y.id := fun e => hnd.1 (by rw [e]; exact List.mem_map_of_mem hy)
      refine ⟨x :: rest, (h1.cons x).trans (List.Perm.swap _ _ _), ?_⟩
      simp only [AdaptiveS3.hit, List.map_cons, hne, if_false] at h2 ⊢
      exact (h2.cons x).trans (List.Perm.swap _ _ _)

theorem Rep.bump (h : Rep K s t) : Rep K (algo.bump s) { t with n := t.n + 1 } :=
  ⟨h.csz, h.small, h.main, h.ghost, h.move, h.keep, congrArg (· + 1) h.n, h.hist, h.pos, h.nodup, fun x hx => Nat.le_succ_of_le (h.cnt x hx), h.cap⟩

/-- a `get` that finds the object in the small queue -/
theorem Rep.find_small (h : Rep K s t) (hn : t.n + 1 < 2 ^ 31) (r : Req) (hm : r.id ∈ (ent t.small).ids) :
    ∃ s', find (algo.bump s) r true = .ok (true, s') ∧ Rep K s' { t with n := t.n + 1, small := AdaptiveS3.hit r.id t.small } := by
  obtain ⟨o, f, h1, h2, y, hy, _, hc⟩ := h.small.hit hm
  have hyn : y.cnt ≤ t.n := h.cnt y (by simp [hy])
  have hlog : Nat.log2 (o.mt + 1) < 32 := (log2_lt (by decide)).2 (by omega)
  have h1' : (algo.bump s).fifo.findFIFO r true = (some o, f) := h1
  refine ⟨{ algo.bump s with hitOnGhost := false, fifo := f.modify r.id S3FIFO.hit }, by simp only [find, findUpdate, if_true, h1', hlog], ⟨h.csz, h2, h.main, h.ghost, h.move, h.keep, congrArg (· + 1) h.n, h.hist, h.pos, ?_, ?_, ?_⟩⟩
  · have := h.nodup
    rw [List.map_append] at this ⊢
    show (List.map (fun x => x.id) (AdaptiveS3.hit r.id t.small) ++ _).Nodup
    rw [hit_ids]; exact this
  · intro x hx
    rcases List.mem_append.1 hx with hx | hx
    · exact hit_cnt (fun z hz => h.cnt z (List.mem_append_left _ hz)) x hx
    · exact Nat.le_succ_of_le (h.cnt x (List.mem_append_right _ hx))
  · show LazyARC.size (AdaptiveS3.hit r.id t.small) + LazyARC.size t.main ≤ K.cs
    rw [hit_size]; exact h.cap

/-- a `get` that finds the object in the main queue -/
theorem Rep.find_main (h : Rep K s t) (hn : t.n + 1 < 2 ^ 31) (r : Req) (hs : r.id ∉ (ent t.small).ids) (hm : r.id ∈ (ent t.main).ids) :
    ∃ s', find (algo.bump s) r true = .ok (true, s') ∧
      Rep K s' { t with n := t.n + 1, ghost := t.ghost.filter (fun x => x.1 ≠ r.id), main := AdaptiveS3.hit r.id t.main } := by
  obtain ⟨o, f, h1, h2, y, hy, hyid, hc⟩ := h.main.hit hm
  have hyn : y.cnt ≤ t.n := h.cnt y (by simp [hy])
  have h1' : (algo.bump s).main.findFIFO r true = (some o, f) := h1
  have h0 : (algo.bump s).fifo.findFIFO r true = (none, s.fifo) := h.small.miss hs
  obtain ⟨g, g1, g2⟩ := h.ghost.remove r.id
  have g1' : ghostRemove (algo.bump s).ghost r.id = .ok (decide (r.id ∈ t.ghost.ids), g) := g1
  have hndm : (t.main.map (·.id)).Nodup := by
    have := h.nodup
    rw [List.map_append, List.nodup_append] at this
    exact this.2.1
  obtain ⟨rest, p1, p2⟩ := hit_perm hndm hy
  obtain ⟨c1, k1, k2⟩ := count_sub h.hist p1 (by omega)
  obtain ⟨c2, k3, k4⟩ := count_add (x := ⟨y.id, y.size, y.cnt + 1⟩) k2 p2 (show y.cnt + 1 < 2 ^ 32 by omega)
  rw [hyid] at k4
  have k1' : count (algo.bump s).hist o.mt (-1) = .ok c1 := by rw [← hc]; exact k1
  have k3' : count c1 (o.mt + 1) 1 = .ok c2 := by rw [← hc]; exact k3
  refine ⟨{ algo.bump s with hitOnGhost := decide (r.id ∈ t.ghost.ids), fifo := s.fifo, ghost := g, main := f.modify r.id S3FIFO.hit, hist := c2 },
    by simp only [find, findUpdate, if_true, h0, h1', g1', Res.bind_ok, k1', k3'],
    ⟨h.csz, h.small, h2, g2, h.move, h.keep, congrArg (· + 1) h.n, k4, h.pos, ?_, ?_, ?_⟩⟩
  · have := h.nodup
    rw [List.map_append] at this ⊢
    show (_ ++ List.map (fun x => x.id) (AdaptiveS3.hit r.id t.main)).Nodup
    rw [hit_ids]; exact this
  · intro x hx
    rcases List.mem_append.1 hx with hx | hx
    · exact Nat.le_succ_of_le (h.cnt x (List.mem_append_left _ hx))
    · exact hit_cnt (fun z hz => h.cnt z (List.mem_append_right _ hz)) x hx
  · show LazyARC.size t.small + LazyARC.size (AdaptiveS3.hit r.id t.main) ≤ K.cs
    rw [hit_size]; exact h.cap

/-- a `get` that finds nothing -/
theorem Rep.find_miss (h : Rep K s t) (r : Req) (hs : r.id ∉ (ent t.small).ids) (hm : r.id ∉ (ent t.main).ids) :
    ∃ s', find (algo.bump s) r true = .ok (false, s') ∧ Rep K s' { t with n := t.n + 1, ghost := t.ghost.filter (fun x => x.1 ≠ r.id) } ∧
      s'.hitOnGhost = decide (r.id ∈ t.ghost.ids) := by
  have h1' : (algo.bump s).main.findFIFO r true = (none, s.main) := h.main.miss hm
  have h0 : (algo.bump s).fifo.findFIFO r true = (none, s.fifo) := h.small.miss hs
  obtain ⟨g, g1, g2⟩ := h.ghost.remove r.id
  have g1' : ghostRemove (algo.bump s).ghost r.id = .ok (decide (r.id ∈ t.ghost.ids), g) := g1
  have hb := h.bump
  exact ⟨{ algo.bump s with hitOnGhost := decide (r.id ∈ t.ghost.ids), fifo := s.fifo, ghost := g, main := s.main },
    by simp only [find, findUpdate, if_true, h0, h1', g1', Res.bind_ok],
    ⟨h.csz, h.small, h.main, g2, h.move, h.keep, hb.n, h.hist, h.pos, h.nodup, hb.cnt, h.cap⟩, rfl⟩

theorem Rep.insert_main (h : Rep K s t) (r : Req) (hg : s.hitOnGhost = true) (hn : r.id ∉ ids t) (hsz : r.size < u32)
    (hroom : LazyARC.size t.small + LazyARC.size t.main + r.size ≤ K.cs) :
    ∃ s', insert s r = .ok s' ∧ Rep K s' { t with main := t.main ++ [⟨r.id, r.size, 0⟩] } := by
  have hn' : r.id ∉ (ent t.main).ids := fun hh => hn ((mem_ids t _).2 (Or.inr hh))
  obtain ⟨m, k1, k2, _⟩ := h.main.insert r hn' hsz
  obtain ⟨c, c1, c2⟩ := count_add (x := ⟨r.id, r.size, 0⟩) (l' := t.main ++ [⟨r.id, r.size, 0⟩]) h.hist (List.perm_append_singleton _ _) (show 0 < 2 ^ 32 by decide)
  have c1' : count s.hist 0 1 = .ok c := c1
  refine ⟨{ s with hitOnGhost := false, main := m, hist := c }, by simp only [insert, hg, if_true, k1, Res.bind_ok, c1'], ⟨h.csz, h.small, k2, h.ghost, h.move, h.keep, h.n, c2, h.pos, ?_, ?_, ?_⟩⟩
  · show ((t.small ++ (t.main ++ [(⟨r.id, r.size, 0⟩ : Item)])).map (fun x => x.id)).Nodup
    rw [← List.append_assoc, List.map_append, List.nodup_append]
    refine ⟨h.nodup, by simp, ?_⟩
    intro a ha b hb
    simp only [List.map_cons, List.map_nil, List.mem_singleton] at hb
    subst hb
    rintro rfl
    exact hn ha
  · intro x hx
    have hx' : x ∈ t.small ++ (t.main ++ [⟨r.id, r.size, 0⟩]) := hx
    rw [← List.append_assoc] at hx'
    rcases List.mem_append.1 hx' with hx | hx
    · exact h.cnt x hx
    · rw [List.mem_singleton.1 hx]; exact Nat.zero_le _
  · show LazyARC.size t.small + LazyARC.size (t.main ++ [_]) ≤ K.cs
    rw [size_append, size_cons, size_nil]
    show LazyARC.size t.small + (LazyARC.size t.main + (r.size + 0)) ≤ K.cs
    omega

theorem Rep.insert_small (h : Rep K s t) (r : Req) (hg : s.hitOnGhost = false) (hn : r.id ∉ ids t) (hsz : r.size < u32) (hfs : r.size < K.fs)
    (hroom : LazyARC.size t.small + LazyARC.size t.main + r.size ≤ K.cs) :
    ∃ s', insert s r = .ok s' ∧ Rep K s' { t with small := t.small ++ [⟨r.id, r.size, 0⟩] } := by
  have hn' : r.id ∉ (ent t.small).ids := fun hh => hn ((mem_ids t _).2 (Or.inl hh))
  obtain ⟨m, k1, k2, _⟩ := h.small.insert r hn' hsz
  have hlt : ¬ r.size ≥ s.fifo.base.cacheSize := by rw [h.small.csz]; omega
  have hp : (t.small ++ [(⟨r.id, r.size, 0⟩ : Item)] ++ t.main).Perm (⟨r.id, r.size, 0⟩ :: (t.small ++ t.main)) := by
    rw [List.append_assoc]; exact List.perm_middle
  refine ⟨{ s with fifo := m }, by simp only [insert, hg, Bool.false_eq_true, if_false, hlt, k1, Res.bind_ok],
    ⟨h.csz, k2, h.main, h.ghost, h.move, h.keep, h.n, h.hist, h.pos, ?_, ?_, ?_⟩⟩
  · refine (hp.map _).nodup_iff.2 ?_
    rw [List.map_cons, List.nodup_cons]
    exact ⟨hn, h.nodup⟩
  · intro x hx
    rcases List.mem_cons.1 (hp.subset hx) with rfl | hx
    · exact Nat.zero_le _
    · exact h.cnt x hx
  · show LazyARC.size (t.small ++ [_]) + LazyARC.size t.main ≤ K.cs
    rw [size_append, size_cons, size_nil]
    show LazyARC.size t.small + (r.size + 0) + LazyARC.size t.main ≤ K.cs
    omega

/-! ### get -/

theorem Rep.serve_spec (hK : K.fs ≤ K.cs) (h : Rep K s t) (hn : t.n + 1 < 2 ^ 31) (r : Req) (hsz : r.size < u32) :
    ∃ s', algo.get s r = .ok ((serve K t r).1, s') ∧ Rep K s' (serve K t r).2 ∧ (serve K t r).2.n = t.n + 1 := by
  unfold serve
  by_cases hs : r.id ∈ (ent t.small).ids
  · simp only [hs, if_true]
    obtain ⟨s', h1, h2⟩ := h.find_small hn r hs
    exact ⟨s', get_hit h1, h2, trivial⟩
  · simp only [hs, if_false]
    by_cases hm : r.id ∈ (ent t.main).ids
    · simp only [hm, if_true]
      obtain ⟨s', h1, h2⟩ := h.find_main hn r hs hm
      exact ⟨s', get_hit h1, h2, trivial⟩
    · simp only [hm, if_false]
      obtain ⟨s1, h1, h2, h3⟩ := h.find_miss r hs hm
      have hci : algo.canInsert s1 r = (decide (r.size ≤ K.fs), s1) := by
        show (decide (r.size ≤ s1.fifo.base.cacheSize), s1) = _
        rw [h2.small.csz]
      by_cases hfs : K.fs < r.size
      · simp only [hfs, if_true]
        rw [decide_eq_false (by omega)] at hci
        exact ⟨s1, get_reject h1 hci, h2, trivial⟩
      · simp only [hfs, if_false]
        rw [decide_eq_true (by omega)] at hci
        obtain ⟨s2, k1, k2, k3, k4⟩ := room_spec r (show r.size ≤ K.cs by omega) (2 * t.small.length + t.main.length) s1 _ h2 hn (Nat.le_refl _)
        have k1' : algo.evictLoop r (algo.fuel s1) s1 = .ok s2 := by
          show algo.evictLoop r (2 * s1.fifo.base.tbl.length + s1.main.base.tbl.length) s1 = _
          rw [h2.small.len, h2.main.len]; exact k1
        obtain ⟨f1, f2⟩ := room_frame (K := K) r.size (2 * t.small.length + t.main.length)
          { t with n := t.n + 1, ghost := t.ghost.filter (fun x => x.1 ≠ r.id) }
        have hnew : r.id ∉ ids (room K r.size (2 * t.small.length + t.main.length) { t with n := t.n + 1, ghost := t.ghost.filter (fun x => x.1 ≠ r.id) }) := by
          intro hh
          rcases (mem_ids _ _).1 (f2 r.id hh) with hh | hh
          · exact hs hh
          · exact hm hh
        by_cases hg : r.id ∈ t.ghost.ids
        · simp only [hg, if_true]
          obtain ⟨s3, j1, j2⟩ := k2.insert_main r (by rw [k4, h3, decide_eq_true hg]) hnew hsz k3
          exact ⟨s3, get_accept h1 hci k1' j1, j2, f1⟩
        · simp only [hg, if_false]
          have hgf : s2.hitOnGhost = false := by rw [k4, h3, decide_eq_false hg]
          by_cases hlt : r.size < K.fs
          · simp only [hlt, if_true]
            obtain ⟨s3, j1, j2⟩ := k2.insert_small r hgf hnew hsz hlt k3
            exact ⟨s3, get_accept h1 hci k1' j1, j2, f1⟩
          · simp only [hlt, if_false]
            have j1 : insert s2 r = .ok s2 := by
              have hge : r.size ≥ s2.fifo.base.cacheSize := by rw [k2.small.csz]; omega
              simp only [insert, hgf, Bool.false_eq_true, if_false, hge, if_true]
            exact ⟨s2, get_accept h1 hci k1' j1, k2, f1⟩

theorem threshold_pos (l : List Item) (d : Nat) (hd : 1 ≤ d) : ∀ m i, 1 ≤ threshold l d i m := by
  intro m
  induction m with
  | zero => intro i; exact hd
  | succ m ih =>
    intro i
    simp only [threshold]
    split
    · exact Nat.one_le_two_pow
    · exact ih _

theorem Rep.update (h : Rep K s t) (hn : t.n < 2 ^ 31) (hne : t.main ≠ []) (d : Nat) (set : Nat → State) :
    update s set = .ok (set (threshold t.main d 0 32)) := by
  have hb : ∀ x ∈ t.main, x.cnt < 2 ^ 31 := fun x hx => Nat.lt_of_le_of_lt (h.cnt x (List.mem_append_right _ hx)) hn
  have hp := pick_spec h.hist hne hb d 32 (by decide) (Nat.le_refl _)
  have hsum : ((List.range 32).map s.hist).sum = s.main.base.nObj := by
    rw [sum_below h.hist, below_all (by decide) (fun x hx => Nat.lt_trans (hb x hx) (by decide)), h.main.nObj]
  have h0 : t.main.countP (fun x => decide (Nat.log2 x.cnt < 32 - 32)) = 0 := by simp
  rw [h0] at hp
  have hp' : pick s.hist (s.main.base.nObj * 9 / 10) 32 0 = .ok (some (threshold t.main d 0 32)) := by rw [h.main.nObj]; exact hp
  simp only [S3FIFOdv2.update, hp', Res.bind_ok, hsum, ne_eq, not_true_eq_false, if_false]

theorem Rep.get_spec (hK : K.fs ≤ K.cs) (h : Rep K s t) (hn : t.n + 1 < 2 ^ 31) (r : Req) (hsz : r.size < u32) :
    ∃ s', get s r = .ok ((AdaptiveS3.get K t r).1, s') ∧ Rep K s' (AdaptiveS3.get K t r).2 ∧ (AdaptiveS3.get K t r).2.n = t.n + 1 := by
  obtain ⟨s1, h1, h2, h3⟩ := h.serve_spec hK hn r hsz
  unfold AdaptiveS3.get S3FIFOdv2.get
  rw [h1, Res.bind_ok]
  generalize serve K t r = u at h1 h2 h3
  have e1 := h2.main.occ
  have e2 := h2.main.csz
  have e3 := h2.n
  simp only [adapt]
  by_cases hc : 10 * LazyARC.size u.2.main > 9 * (K.cs - K.fs) ∧ u.2.n % 1000 = 0
  · have hc' : 10 * s1.main.base.occ > 9 * (s1.main.base.cacheSize : Int) ∧ s1.nReq % 1000 = 0 := by
      rw [e1, e2, e3]; exact ⟨by have := hc.1; omega, hc.2⟩
    have hne : u.2.main ≠ [] := by
      intro e
      have := hc.1
      rw [e] at this
      simp at this
    rw [if_pos hc', if_pos hc, h2.update (by omega) hne u.2.keep, Res.bind_ok]
    have hr : Rep K { s1 with keep := threshold u.2.main u.2.keep 0 32 } { u.2 with keep := threshold u.2.main u.2.keep 0 32 } :=
      ⟨h2.csz, h2.small, h2.main, h2.ghost, h2.move, rfl, h2.n, h2.hist, threshold_pos _ _ h2.pos _ _, h2.nodup, h2.cnt, h2.cap⟩
    rw [hr.update (by show u.2.n < 2 ^ 31; omega) hne u.2.move, Res.bind_ok]
    exact ⟨_, rfl, ⟨hr.csz, hr.small, hr.main, hr.ghost, rfl, rfl, hr.n, hr.hist, hr.pos, hr.nodup, hr.cnt, hr.cap⟩, h3⟩
  · have hc' : ¬ (10 * s1.main.base.occ > 9 * (s1.main.base.cacheSize : Int) ∧ s1.nReq % 1000 = 0) := by
      rw [e1, e2, e3]; intro hh; exact hc ⟨by have := hh.1; omega, hh.2⟩
    rw [if_neg hc', if_neg hc, Res.bind_ok]
    exact ⟨_, rfl, h2, h3⟩

theorem gets_spec (hK : K.fs ≤ K.cs) : ∀ (rs : List Req) (s : State) (t : St), Rep K s t → t.n + rs.length < 2 ^ 31 → (∀ r ∈ rs, r.size < u32) →
    ∃ s', gets s rs = .ok ((AdaptiveS3.gets K t rs).1, s') ∧ Rep K s' (AdaptiveS3.gets K t rs).2 := by
  intro rs
  induction rs with
  | nil => intro s t h _ _; exact ⟨s, rfl, h⟩
  | cons r rs ih =>
    intro s t h hn hsz
    simp only [List.length_cons] at hn
    obtain ⟨s1, h1, h2, h3⟩ := h.get_spec hK (by omega) r (hsz r (by simp))
    obtain ⟨s', k1, k2⟩ := ih s1 _ h2 (by omega) (fun r' hr' => hsz r' (by simp [hr']))
    refine ⟨s', ?_, k2⟩
    simp only [gets, h1, Res.bind_ok, k1]
    rfl

end

/-- what is cached -/
def cached (s : State) : Contents := s.fifo.base.cached ++ s.main.base.cached

/-- the state in the terms of the specification -/
def view (s : State) : St :=
  { small := (s.fifo.objs.map item).reverse, main := (s.main.objs.map item).reverse, ghost := ghostList s.ghost, move := s.move, keep := s.keep, n := s.nReq }

theorem Rep.view {K : Conf} {s : State} {t : St} (h : Rep K s t) : view s = t := by
  cases t
  simp only [S3FIFOdv2.view, h.small.list, h.main.list, h.ghost.list, h.move, h.keep, h.n]

theorem Rep.cached {K : Conf} {s : State} {t : St} (h : Rep K s t) : (contents t).Perm (S3FIFOdv2.cached s) := h.small.cached.append h.main.cached

theorem threshold_least {l : List Item} (d : Nat) : ∀ m i, (∃ k, i ≤ k ∧ k < i + m ∧ Enough l k) →
    ∃ k, threshold l d i m = 2 ^ k ∧ i ≤ k ∧ Enough l k ∧ ∀ j, i ≤ j → j < k → ¬ Enough l j := by
  intro m
  induction m with
  | zero => rintro i ⟨k, h1, h2, _⟩; omega
  | succ m ih =>
    rintro i ⟨k, h1, h2, h3⟩
    simp only [threshold]
    by_cases he : Enough l i
    · rw [if_pos he]
      exact ⟨i, rfl, Nat.le_refl _, he, fun j h1 h2 => by omega⟩
    · rw [if_neg he]
      have hk : k ≠ i := fun e => he (e ▸ h3)
      obtain ⟨k', j1, j2, j3, j4⟩ := ih (i + 1) ⟨k, by omega, by omega, h3⟩
      refine ⟨k', j1, by omega, j3, fun j a b => ?_⟩
      by_cases hj : j = i
      · rw [hj]; exact he
      · exact j4 j (by omega) b

/-- every state reached by a trace -/
theorem reach {K : Conf} (hK : K.fs ≤ K.cs) (mv : Nat) {rs : List Req} (hl : rs.length < 2 ^ 31) (hsz : ∀ r ∈ rs, r.size < u32) :
    ∃ s', gets (init K.cs K.fs K.gs mv) rs = .ok ((AdaptiveS3.gets K { move := mv } rs).1, s') ∧ Rep K s' (AdaptiveS3.gets K { move := mv } rs).2 :=
  gets_spec hK rs _ _ (Rep.init K mv) (by simpa using hl) hsz

theorem room_thr {K : Conf} (need : Nat) : ∀ n (t : St), (room K need n t).keep = t.keep ∧ (room K need n t).move = t.move := by
  intro n
  induction n with
  | zero => intro t; exact ⟨rfl, rfl⟩
  | succ n ih =>
    intro t
    simp only [room]
    split
    · exact ⟨rfl, rfl⟩
    · have h1 := ih (AdaptiveS3.evict K t)
      have h2 := evict_frame (K := K) t
      exact ⟨h1.1.trans h2.2.1, h1.2.trans h2.2.2.1⟩

theorem serve_frame {K : Conf} (t : St) (r : Req) : (serve K t r).2.n = t.n + 1 ∧ (serve K t r).2.keep = t.keep ∧ (serve K t r).2.move = t.move := by
  unfold serve
  dsimp only
  split
  · exact ⟨rfl, rfl, rfl⟩
  · split
    · exact ⟨rfl, rfl, rfl⟩
    · split
      · exact ⟨rfl, rfl, rfl⟩
      · split
        · exact ⟨(room_frame _ _ _).1, room_thr _ _ _⟩
        · split
          · exact ⟨(room_frame _ _ _).1, room_thr _ _ _⟩
          · exact ⟨(room_frame _ _ _).1, room_thr _ _ _⟩

theorem gets_n (K : Conf) : ∀ (rs : List Req) (t : St), (AdaptiveS3.gets K t rs).2.n = t.n + rs.length := by
  have hserve : ∀ (t : St) r, (serve K t r).2.n = t.n + 1 := fun t r => (serve_frame t r).1
  intro rs
  induction rs with
  | nil => intro t; rfl
  | cons r rs ih =>
    intro t
    simp only [AdaptiveS3.gets, ih, List.length_cons]
    have : (AdaptiveS3.get K t r).2.n = t.n + 1 := by
      unfold AdaptiveS3.get
      dsimp only
      split <;> exact hserve t r
    omega

theorem reach_cont {K : Conf} (hK : K.fs ≤ K.cs) (mv : Nat) {rs : List Req} {r : Req} {out : List Bool} {s : State} (hl : rs.length + 1 < 2 ^ 31) (hsz : ∀ r ∈ rs, r.size < u32)
    (hg : gets (init K.cs K.fs K.gs mv) rs = .ok (out, s)) (hr : r.size < u32) :
    Rep K s (view s) ∧ (view s).n + 1 < 2 ^ 31 := by
  obtain ⟨s', h1, h2⟩ := reach hK mv (rs := rs) (by omega) hsz
  rw [hg] at h1
  injection h1 with h1
  injection h1 with _ h1
  subst h1
  have hn := gets_n K rs { move := mv }
  have e := h2.view
  rw [← e] at h2 hn
  exact ⟨h2, by rw [hn]; show 0 + _ + 1 < _; omega⟩

end Verif.S3FIFOdv2
