import Verif.Proof.Lists
import Verif.Proof.LFU
import Verif.Base.Medium
import Verif.Algo.LeCaR
import Verif.Spec.LeCaR
import Verif.Spec.ARC
/-!
# LeCaR: the LRU list, the frequency lists and the two histories
-/

namespace Verif.LeCaR
open Verif Spec Spec.LeCaR
open Verif.LFU (Node setNode qOf qOf_some qOf_set)
open Verif.Lists (Rep put put_self put_ne put_put without without_ids without_perm without_charge without_last last_of_pos)

variable {R : Arith}

/-! ## Frequency lists -/

def idsOf (l : List Item) : List ObjId := l.map (·.id)

/-- the list without an object -/
def del (id : ObjId) (l : List Item) : List Item := l.filter (fun x => x.id ≠ id)

/-- the objects with `f` accesses, least recent first -/
def withCnt (l : List Item) (f : Nat) : List ObjId := idsOf (l.reverse.filter (fun x => x.cnt = f))

structure Fr (l : List Item) (nodes : Nat → Option Node) (mx : Nat) : Prop where
  nd : (idsOf l).Nodup
  qs : ∀ f, qOf nodes f = withCnt l f
  cnt : ∀ f nd, nodes f = some nd → nd.n = (nd.q.length : Nat)
  pos : ∀ x ∈ l, 1 ≤ x.cnt ∧ x.cnt ≤ mx
  one : ∃ nd, nodes 1 = some nd
  mx : 1 ≤ mx

/-- `m` is the smallest count -/
def MinOk (l : List Item) (m : Nat) : Prop := l ≠ [] → (∃ x ∈ l, x.cnt = m) ∧ ∀ x ∈ l, m ≤ x.cnt

theorem withCnt_ne {l : List Item} {f : Nat} : withCnt l f ≠ [] ↔ ∃ x ∈ l, x.cnt = f := by
  simp only [withCnt, idsOf, ne_eq, List.map_eq_nil_iff, List.filter_eq_nil_iff, List.mem_reverse, decide_eq_true_eq]
  constructor
  · intro h; by_contra hc; exact h (fun a ha hf => hc ⟨a, ha, hf⟩)
  · rintro ⟨x, hx, hf⟩ h; exact h x hx hf

theorem mem_withCnt {l : List Item} {f : Nat} {id : ObjId} : id ∈ withCnt l f ↔ ∃ x ∈ l, x.cnt = f ∧ x.id = id := by
  simp only [withCnt, idsOf, List.mem_map, List.mem_filter, List.mem_reverse, decide_eq_true_eq]
  constructor
  · rintro ⟨x, ⟨h1, h2⟩, h3⟩; exact ⟨x, h1, h2, h3⟩
  · rintro ⟨x, h1, h2, h3⟩; exact ⟨x, ⟨h1, h2⟩, h3⟩

theorem item_unique {l : List Item} (hn : (idsOf l).Nodup) {x y : Item} (hx : x ∈ l) (hy : y ∈ l) (e : x.id = y.id) : x = y :=
  List.inj_on_of_nodup_map hn hx hy e

theorem withCnt_nodup {l : List Item} (hn : (idsOf l).Nodup) (f : Nat) : (withCnt l f).Nodup := by
  have : (withCnt l f).Sublist (idsOf l.reverse) := (List.filter_sublist).map _
  refine this.nodup ?_
  simpa [idsOf] using hn

theorem withCnt_del {l : List Item} (hn : (idsOf l).Nodup) (id : ObjId) (f : Nat) : withCnt (del id l) f = (withCnt l f).erase id := by
  rw [erase_eq_filter (withCnt_nodup hn f)]
  simp only [withCnt, del, idsOf, List.filter_map, ← List.filter_reverse, List.filter_filter]
  congr 1
  apply List.filter_congr
  intro x _
  simp [Bool.and_comm]

theorem withCnt_cons (x : Item) (l : List Item) (f : Nat) : withCnt (x :: l) f = if x.cnt = f then withCnt l f ++ [x.id] else withCnt l f := by
  simp only [withCnt, idsOf, List.reverse_cons, List.filter_append, List.map_append]
  by_cases h : x.cnt = f
  · rw [if_pos h, List.filter_cons_of_pos (by simpa using h)]; rfl
  · rw [if_neg h, List.filter_cons_of_neg (by simpa using h)]; simp

theorem mem_del {l : List Item} {id : ObjId} {x : Item} : x ∈ del id l ↔ x ∈ l ∧ x.id ≠ id := by simp [del]

theorem del_ids (id : ObjId) (l : List Item) (hn : (idsOf l).Nodup) : idsOf (del id l) = (idsOf l).erase id := by
  rw [erase_eq_filter hn]
  simp only [idsOf, del, List.filter_map]; rfl

theorem del_split {a b : List Item} {x : Item} (hn : (idsOf (a ++ x :: b)).Nodup) : del x.id (a ++ x :: b) = a ++ b := by
  simp only [idsOf, List.map_append, List.map_cons, List.nodup_append, List.nodup_cons] at hn
  simp only [del, List.filter_append]
  rw [List.filter_cons_of_neg (by simp)]
  congr 1
  · rw [List.filter_eq_self]
    intro y hy
    have := hn.2.2 y.id (List.mem_map_of_mem hy) x.id (by simp)
    simpa using this
  · rw [List.filter_eq_self]
    intro y hy
    have h1 := hn.2.1.1
    simp only [ne_eq, decide_not, Bool.not_eq_eq_eq_not, Bool.not_true, decide_eq_false_iff_not]
    intro e
    exact h1 (e ▸ List.mem_map_of_mem hy)

section
variable {l : List Item} {s : State R}

theorem Fr.single (h : Fr l s.nodes s.maxFreq) {x : Item} (hx : x ∈ l) (hd : del x.id l = []) : l = [x] := by
  have hn := h.nd
  obtain ⟨a, b, rfl⟩ := List.append_of_mem hx
  rw [del_split hn] at hd
  obtain ⟨rfl, rfl⟩ := List.append_eq_nil_iff.1 hd
  rfl

theorem updateMin_spec (h : Fr l s.nodes s.maxFreq) (hb : ∀ x ∈ l, s.minFreq < x.cnt) :
    ∃ m, updateMin s = { s with minFreq := m } ∧ MinOk l m ∧ (l = [] → m = s.minFreq) := by
  unfold updateMin
  generalize hp : (fun f => match s.nodes f with
    | some nd => decide (nd.n > 0)
    | none => false) = p
  have hpt : ∀ f, p f = true ↔ ∃ x ∈ l, x.cnt = f := by
    intro f
    rw [← withCnt_ne, ← h.qs]
    subst hp
    simp only [qOf]
    cases hn : s.nodes f with
    | none => simp
    | some nd =>
      simp only [decide_eq_true_eq]
      rw [h.cnt f nd hn]
      cases nd.q <;> simp
  cases hf : (List.range' (s.minFreq + 1) (s.maxFreq - s.minFreq)).find? p with
  | none =>
    refine ⟨s.minFreq, rfl, fun hne => ?_, fun _ => rfl⟩
    obtain ⟨x, hx⟩ := List.exists_mem_of_ne_nil _ hne
    rw [List.find?_eq_none] at hf
    have := h.pos x hx
    have h2 := hb x hx
    exact absurd ((hpt x.cnt).2 ⟨x, hx, rfl⟩) (hf x.cnt (by rw [List.mem_range'_1]; omega))
  | some f =>
    refine ⟨f, rfl, fun hne => ⟨(hpt f).1 (List.find?_some hf), ?_⟩, fun he => ?_⟩
    · intro x hx
      rw [List.find?_range'_eq_some] at hf
      by_contra hlt
      have h3 := hf.2.2 x.cnt (by have := hb x hx; omega) (by omega)
      rw [(hpt x.cnt).2 ⟨x, hx, rfl⟩] at h3; simp at h3
    · obtain ⟨x, hx, _⟩ := (hpt f).1 (List.find?_some hf)
      rw [he] at hx; simp at hx

theorem takeFreq_spec (h : Fr l s.nodes s.maxFreq) (hm : MinOk l s.minFreq) {x : Item} (hx : x ∈ l) :
    ∃ nodes' m, takeFreq s x.id x.cnt = .ok { s with nodes := nodes', minFreq := m } ∧ Fr (del x.id l) nodes' s.maxFreq ∧ MinOk (del x.id l) m ∧
      (del x.id l = [] → m = x.cnt) := by
  have hin : x.id ∈ qOf s.nodes x.cnt := by rw [h.qs, mem_withCnt]; exact ⟨x, hx, rfl, rfl⟩
  cases hn : s.nodes x.cnt with
  | none => simp [qOf, hn] at hin
  | some nd =>
    rw [qOf_some hn] at hin
    have hq : nd.q = withCnt l x.cnt := by rw [← h.qs, qOf_some hn]
    have hc := h.cnt _ _ hn
    have hlen : (nd.q.erase x.id).length = nd.q.length - 1 := List.length_erase_of_mem hin
    have hpos : 0 < nd.q.length := List.length_pos_of_mem hin
    have hfr : Fr (del x.id l) (setNode s.nodes x.cnt (some ⟨nd.n - 1, nd.q.erase x.id⟩)) s.maxFreq := by
      refine ⟨?_, fun f => ?_, fun f nd' hf => ?_, fun y hy => h.pos y (mem_del.1 hy).1, ?_, h.mx⟩
      · rw [del_ids _ _ h.nd]; exact h.nd.erase _
      · rw [qOf_set, withCnt_del h.nd]
        by_cases e : f = x.cnt
        · rw [if_pos e, hq, e]
        · rw [if_neg e, h.qs, List.erase_of_not_mem]
          rw [mem_withCnt]
          rintro ⟨y, hy, h1, h2⟩
          rw [item_unique h.nd hy hx h2] at h1
          exact e h1.symm
      · by_cases e : f = x.cnt
        · simp only [setNode, e, if_true, Option.some.injEq] at hf
          subst hf
          show nd.n - 1 = _
          rw [hc, hlen]; omega
        · simp only [setNode, e, if_false] at hf
          exact h.cnt f nd' hf
      · obtain ⟨n1, h1⟩ := h.one
        by_cases e : (1 : Nat) = x.cnt
        · exact ⟨_, if_pos e⟩
        · exact ⟨n1, by simp only [setNode, e, if_false]; exact h1⟩
    have hne : l ≠ [] := List.ne_nil_of_mem hx
    obtain ⟨⟨y, hy, hye⟩, hlow⟩ := hm hne
    have heq : takeFreq s x.id x.cnt = .ok (if x.cnt = s.minFreq ∧ nd.n - 1 = 0 then updateMin { s with nodes := setNode s.nodes x.cnt (some ⟨nd.n - 1, nd.q.erase x.id⟩) }
      else { s with nodes := setNode s.nodes x.cnt (some ⟨nd.n - 1, nd.q.erase x.id⟩) }) := by
      unfold takeFreq
      rw [hn]
      simp only [qRemove, if_pos hin, Res.bind_ok]
    rw [heq]
    by_cases hcond : x.cnt = s.minFreq ∧ nd.n - 1 = 0
    · rw [if_pos hcond]
      obtain ⟨m, h1, h2, h3⟩ := updateMin_spec (s := { s with nodes := setNode s.nodes x.cnt (some ⟨nd.n - 1, nd.q.erase x.id⟩) }) hfr (by
        intro z hz
        obtain ⟨hz1, hz2⟩ := mem_del.1 hz
        have hz3 := hlow z hz1
        show s.minFreq < z.cnt
        have : z.cnt ≠ s.minFreq := by
          intro e
          have hzq : z.id ∈ nd.q.erase x.id := by
            rw [List.mem_erase_of_ne hz2, hq, mem_withCnt]
            exact ⟨z, hz1, by rw [e, hcond.1], rfl⟩
          have := List.length_pos_of_mem hzq
          rw [hlen] at this
          rw [hc] at hcond
          omega
        omega)
      exact ⟨_, m, by rw [h1], hfr, h2, fun he => by rw [h3 he]; exact hcond.1.symm⟩
    · rw [if_neg hcond]
      refine ⟨_, s.minFreq, rfl, hfr, fun hne' => ⟨?_, fun z hz => hlow z (mem_del.1 hz).1⟩, fun he => ?_⟩
      · by_cases e : x.cnt = s.minFreq
        · have : 0 < (nd.q.erase x.id).length := by
            rw [hlen]
            have : ¬ (nd.n - 1 = 0) := fun h0 => hcond ⟨e, h0⟩
            rw [hc] at this; omega
          obtain ⟨i, hi⟩ := List.exists_mem_of_length_pos this
          rw [hq, ← withCnt_del h.nd, mem_withCnt] at hi
          obtain ⟨z, hz, hzc, _⟩ := hi
          exact ⟨z, hz, by rw [hzc, e]⟩
        · refine ⟨y, mem_del.2 ⟨hy, fun e' => e ?_⟩, hye⟩
          rw [← item_unique h.nd hy hx e']; exact hye
      · have := h.single hx he
        subst this
        simp only [List.mem_singleton] at hy
        rw [← hy]; exact hye.symm

theorem putFreq_spec {mx : Nat} (h : Fr l s.nodes mx) {x : Item} (hx : x.id ∉ idsOf l) (hp : 1 ≤ x.cnt) (hmx : mx ≤ s.maxFreq) (hmx' : x.cnt ≤ s.maxFreq) :
    ∃ nodes', putFreq s x.id x.cnt = .ok { s with nodes := nodes' } ∧ Fr (x :: l) nodes' s.maxFreq := by
  have hq : ((s.nodes x.cnt).getD {}).q = withCnt l x.cnt := by
    rw [← h.qs]; unfold qOf; cases s.nodes x.cnt <;> rfl
  have hc : ((s.nodes x.cnt).getD {}).n = (((s.nodes x.cnt).getD {}).q.length : Nat) := by
    cases hn : s.nodes x.cnt with
    | none => rfl
    | some nd => exact h.cnt _ _ hn
  have hno : x.id ∉ withCnt l x.cnt := by
    rw [mem_withCnt]
    rintro ⟨y, hy, _, e⟩
    exact hx (e ▸ List.mem_map_of_mem hy)
  refine ⟨setNode s.nodes x.cnt (some ⟨((s.nodes x.cnt).getD {}).n + 1, withCnt l x.cnt ++ [x.id]⟩), ?_, ?_, fun f => ?_, fun f nd hf => ?_, ?_, ?_, Nat.le_trans h.mx hmx⟩
  · simp only [putFreq, hq, qAppend, if_neg hno, Res.bind_ok]
  · simp only [idsOf, List.map_cons, List.nodup_cons]
    exact ⟨hx, h.nd⟩
  · rw [qOf_set, withCnt_cons]
    by_cases e : x.cnt = f
    · rw [if_pos e.symm, if_pos e, e]
    · rw [if_neg (Ne.symm e), if_neg e, h.qs]
  · by_cases e : f = x.cnt
    · simp only [setNode, e, if_true, Option.some.injEq] at hf
      subst hf
      show _ + 1 = _
      rw [hc, hq]; simp
    · simp only [setNode, e, if_false] at hf
      exact h.cnt f nd hf
  · intro y hy
    rcases List.mem_cons.1 hy with rfl | hy
    · exact ⟨hp, hmx'⟩
    · have := h.pos y hy; omega
  · obtain ⟨n1, h1⟩ := h.one
    by_cases e : (1 : Nat) = x.cnt
    · exact ⟨_, if_pos e⟩
    · exact ⟨n1, by simp only [setNode, e, if_false]; exact h1⟩

theorem settleMin_spec {x : Item} (h : Fr (x :: l) s.nodes s.maxFreq) (hm : MinOk l s.minFreq) (hn : s.base.nObj = ((x :: l).length : Nat))
    (he : l = [] → s.minFreq < x.cnt) : ∃ m, settleMin s x.cnt = { s with minFreq := m } ∧ MinOk (x :: l) m := by
  unfold settleMin
  cases l with
  | nil =>
    have hb := he rfl
    obtain ⟨m, h1, h2, _⟩ := updateMin_spec h (by intro y hy; simp only [List.mem_singleton] at hy; rw [hy]; exact hb)
    obtain ⟨⟨y, hy, hye⟩, _⟩ := h2 (by simp)
    simp only [List.mem_singleton] at hy
    subst hy
    refine ⟨m, ?_, h2⟩
    have h1' : s.base.nObj = 1 := by rw [hn]; rfl
    simp only [h1', if_true, h1]
    rw [if_neg (by omega)]
  | cons y l =>
    have hcond : ¬ s.base.nObj = 1 := by rw [hn]; simp only [List.length_cons]; omega
    obtain ⟨⟨z, hz, hze⟩, hlow⟩ := hm (by simp)
    simp only [if_neg hcond]
    by_cases e : x.cnt < s.minFreq
    · rw [if_pos e]
      refine ⟨x.cnt, rfl, fun _ => ⟨⟨x, by simp, rfl⟩, fun w hw => ?_⟩⟩
      rcases List.mem_cons.1 hw with rfl | hw
      · exact Nat.le_refl _
      · have := hlow w hw; omega
    · rw [if_neg e]
      refine ⟨s.minFreq, rfl, fun _ => ⟨⟨z, List.mem_cons_of_mem _ hz, hze⟩, fun w hw => ?_⟩⟩
      rcases List.mem_cons.1 hw with rfl | hw
      · omega
      · exact hlow w hw

/-- The first object of the list of the smallest count is the least recently used one with that count. -/
theorem lfuFirst_spec (h : Fr l s.nodes s.maxFreq) (hm : MinOk l s.minFreq) (hne : l ≠ []) :
    ∃ v, v ∈ l ∧ lfuFirst s = .ok (some v.id) ∧ TakesLFU l v (del v.id l) := by
  obtain ⟨⟨y, hy, hye⟩, hlow⟩ := hm hne
  have hq : qOf s.nodes s.minFreq ≠ [] := by rw [h.qs, withCnt_ne]; exact ⟨y, hy, hye⟩
  cases hn : s.nodes s.minFreq with
  | none => simp [qOf, hn] at hq
  | some nd =>
    have hnd : nd.q = withCnt l s.minFreq := by rw [← h.qs, qOf_some hn]
    -- the last object with the smallest count
    have key : ∀ (k : List Item) (m : Nat), (∃ x ∈ k, x.cnt = m) → ∃ a v b, k = a ++ v :: b ∧ v.cnt = m ∧ (∀ z ∈ b, z.cnt ≠ m) := by
      intro k m
      induction k with
      | nil => rintro ⟨x, hx, _⟩; simp at hx
      | cons x k ih =>
        rintro ⟨z, hz, hzm⟩
        by_cases hex : ∃ x ∈ k, x.cnt = m
        · obtain ⟨a, v, b, h1, h2, h3⟩ := ih hex
          exact ⟨x :: a, v, b, by rw [h1]; rfl, h2, h3⟩
        · rcases List.mem_cons.1 hz with rfl | hz
          · exact ⟨[], z, k, rfl, hzm, fun w hw e => hex ⟨w, hw, e⟩⟩
          · exact absurd ⟨z, hz, hzm⟩ hex
    obtain ⟨a, v, b, h1, h2, h3⟩ := key l s.minFreq ⟨y, hy, hye⟩
    have hv : v ∈ l := by rw [h1]; simp
    refine ⟨v, hv, ?_, a, b, h1, ?_, ?_, ?_⟩
    · have hhead : (withCnt l s.minFreq).head? = some v.id := by
        rw [h1]
        simp only [withCnt, List.reverse_append, List.reverse_cons, List.filter_append]
        rw [List.filter_eq_nil_iff.2 (by intro z hz; simpa using h3 z (List.mem_reverse.1 hz)), List.filter_cons_of_pos (by simpa using h2)]
        simp [idsOf]
      unfold lfuFirst
      rw [hn]
      simp only [hnd, hhead]
    · rw [h1]; exact del_split (h1 ▸ h.nd)
    · intro z hz; rw [h2]; exact hlow z hz
    · intro z hz
      have := hlow z (by rw [h1]; simp [hz])
      have := h3 z hz
      omega

end

/-! ## The state -/

/-- Where an object of the hash table belongs. -/
inductive Kind where
  | q | gLru | gLfu | both | bad
deriving DecidableEq, Repr

def kind (m : Meta) : Kind :=
  if m.ghost = false then .q
  else if m.expert = 1 then .gLru
  else if m.expert = 2 then .gLfu
  else if m.expert = -1 then .both
  else .bad

def item (o : Obj Meta) : Item := ⟨o.id, o.size, o.mt.freq⟩

/-- the cached objects, most recent first -/
def view (s : State R) : List Item := viewOf item s.base s.q

/-- ids and sizes -/
def cont (l : List Item) : Contents := l.map Item.entry

def cached (s : State R) : Contents := cont (view s)

/-- The two histories, most recent first. -/
def histLru (s : State R) : Contents := viewOf (fun o => (o.id, o.size)) s.base s.gLru
def histLfu (s : State R) : Contents := viewOf (fun o => (o.id, o.size)) s.base s.gLfu

theorem cont_ids (l : List Item) : (cont l).ids = idsOf l := by simp [cont, Contents.ids, idsOf, Function.comp_def]

/-- The state holds the objects `l` and the ghosts `a`. -/
structure Abs (cs md : Nat) (l : List Item) (a : Kind → Contents) (s : State R) : Prop where
  rep : Rep kind a s.base
  csz : s.base.cacheSize = cs
  mdz : s.base.objMd = md
  small : ∀ o ∈ s.base.tbl, o.size + md < u32
  items : ∀ x ∈ l, ∃ o, s.base.lookup x.id = some o ∧ item o = x
  aq : a .q = cont l
  bad : a .bad = []
  q : s.q = idsOf l
  gLru : s.gLru = (a .gLru).ids
  gLfu : s.gLfu = (a .gLfu).ids
  lruB : s.lruB = (charge md (a .gLru) : Nat)
  lfuB : s.lfuB = (charge md (a .gLfu) : Nat)
  occ : s.base.occ = (charge md (cont l) : Nat)
  nObj : s.base.nObj = (l.length : Nat)
  cap : charge md (cont l) ≤ cs
  fr : Fr l s.nodes s.maxFreq
  min : MinOk l s.minFreq

/-- The histories are within their bounds. -/
def Bounded (cs md : Nat) (a : Kind → Contents) : Prop := charge md (a .gLru) ≤ cs / 2 ∧ charge md (a .gLfu) ≤ cs / 2

def Inv (cs md : Nat) (s : State R) : Prop := ∃ l a, Abs cs md l a s ∧ Bounded cs md a ∧ s.candVt = -1

section
variable {cs md : Nat} {l : List Item} {a : Kind → Contents} {s : State R}

theorem viewOf_of {α : Type} {f : Obj Meta → α} {b : Base Meta} {L : List α} {g : α → ObjId} (h : ∀ x ∈ L, ∃ o, b.lookup (g x) = some o ∧ f o = x) :
    viewOf f b (L.map g) = L := by
  induction L with
  | nil => rfl
  | cons x L ih =>
    obtain ⟨o, h1, h2⟩ := h x (by simp)
    rw [List.map_cons, viewOf_cons h1, h2, ih (fun y hy => h y (by simp [hy]))]

namespace Abs

theorem view_eq (h : Abs cs md l a s) : view s = l := by
  rw [view, h.q, idsOf]; exact viewOf_of h.items

theorem cached_eq (h : Abs cs md l a s) : cached s = cont l := by rw [cached, h.view_eq]

theorem histLru_eq (h : Abs cs md l a s) : histLru s = a .gLru := by
  rw [histLru, h.gLru]
  refine viewOf_of (g := Prod.fst) ?_
  intro x hx
  obtain ⟨o, h1, h2, _⟩ := h.rep.lookup hx
  exact ⟨o, h1, Prod.ext (lookup_some_mem h1).2 h2⟩

theorem histLfu_eq (h : Abs cs md l a s) : histLfu s = a .gLfu := by
  rw [histLfu, h.gLfu]
  refine viewOf_of (g := Prod.fst) ?_
  intro x hx
  obtain ⟨o, h1, h2, _⟩ := h.rep.lookup hx
  exact ⟨o, h1, Prod.ext (lookup_some_mem h1).2 h2⟩

theorem obj (h : Abs cs md l a s) {x : Item} (hx : x ∈ l) :
    ∃ o, s.base.lookup x.id = some o ∧ o.id = x.id ∧ o.size = x.size ∧ o.mt.freq = x.cnt ∧ kind o.mt = .q ∧ o.size + md < u32 ∧ (x.id, x.size) ∈ a .q := by
  obtain ⟨o, h1, h2⟩ := h.items x hx
  obtain ⟨h3, h4⟩ := lookup_some_mem h1
  have hm : (x.id, x.size) ∈ a .q := by rw [h.aq]; exact List.mem_map.2 ⟨x, hx, rfl⟩
  obtain ⟨o', g1, g2, g3⟩ := h.rep.lookup hm
  simp only at g1
  rw [h1] at g1
  cases g1
  exact ⟨o, h1, h4, g2, by rw [← h2]; rfl, g3, h.small o h3, hm⟩

theorem of_mem (h : Abs cs md l a s) {id : ObjId} (hi : id ∈ idsOf l) : ∃ x ∈ l, x.id = id := by
  obtain ⟨x, hx, e⟩ := List.mem_map.1 hi
  exact ⟨x, hx, e⟩

theorem lookup_none (h : Abs cs md l a s) {id : ObjId} (hn : id ∉ idsOf l) {o : Obj Meta} (ho : s.base.lookup id = some o) :
    o.mt.ghost = true := by
  by_contra hg
  have hk : kind o.mt = .q := by rw [kind, if_pos (by simpa using hg)]
  have := h.rep.mem_of ho
  rw [hk, h.aq] at this
  apply hn
  rw [← cont_ids]
  exact List.mem_map_of_mem this

theorem frame (h : Abs cs md l a s) (m : Nat) (ad : Adm) (w : R.W) (ps : List Nat) (v : Int) :
    Abs cs md l a { s with base := { s.base with nReq := m, adm := ad }, w := w, picks := ps, candVt := v } :=
  ⟨h.rep.congr rfl, h.csz, h.mdz, h.small, h.items, h.aq, h.bad, h.q, h.gLru, h.gLfu, h.lruB, h.lfuB, h.occ, h.nObj, h.cap, h.fr, h.min⟩

theorem small_modify (h : Abs cs md l a s) (id : ObjId) (f : Obj Meta → Obj Meta) (hf : ∀ o, (f o).size = o.size) :
    ∀ o ∈ (s.base.modify id f).tbl, o.size + md < u32 := by
  intro o ho
  simp only [Base.modify, List.mem_map] at ho
  obtain ⟨o', ho', rfl⟩ := ho
  have := h.small o' ho'
  split
  · rw [hf]; exact this
  · exact this

theorem items_modify (h : Abs cs md l a s) (id : ObjId) (f : Obj Meta → Obj Meta) (hid : ∀ o, (f o).id = o.id) (hf : ∀ o, item (f o) = item o) :
    ∀ x ∈ l, ∃ o, (s.base.modify id f).lookup x.id = some o ∧ item o = x := by
  intro x hx
  obtain ⟨o, h1, h2⟩ := h.items x hx
  rw [lookup_modify _ _ _ _ hid, h1]
  refine ⟨_, rfl, ?_⟩
  show item (if o.id = id then f o else o) = x
  split
  · rw [hf]; exact h2
  · exact h2

/-- `cache_find_base` with update. -/
theorem touch (h : Abs cs md l a s) (r : Req) : Abs cs md l a { s with base := s.base.modify r.id (Verif.touch r) } :=
  ⟨h.rep.modify r.id (Verif.touch r) (fun _ => rfl) (fun _ => rfl) (fun _ => rfl) rfl, h.csz, h.mdz, h.small_modify r.id (Verif.touch r) (fun _ => rfl),
    h.items_modify r.id (Verif.touch r) (fun _ => rfl) (fun _ => rfl), h.aq, h.bad, h.q, h.gLru, h.gLfu, h.lruB, h.lfuB, h.occ, h.nObj, h.cap, h.fr, h.min⟩

theorem osz_eq (h : Abs cs md l a s) {o : Obj Meta} (hlt : o.size + md < u32) : osz s o = (o.size + md : Nat) := by
  rw [osz, h.mdz, Nat.mod_eq_of_lt hlt]

theorem nodup (h : Abs cs md l a s) : (idsOf l).Nodup := h.fr.nd

end Abs

theorem cont_del (id : ObjId) (l : List Item) : cont (del id l) = without id (cont l) := by
  simp only [cont, del, without, List.filter_map]; rfl

theorem cont_perm {x : Item} (hn : (idsOf l).Nodup) (hx : x ∈ l) : (cont l).Perm (x.entry :: cont (del x.id l)) := by
  rw [cont_del]
  exact without_perm (x := x.entry) (by rw [cont_ids]; exact hn) (List.mem_map_of_mem hx)

theorem del_length {x : Item} (hn : (idsOf l).Nodup) (hx : x ∈ l) : l.length = (del x.id l).length + 1 := by
  have := (cont_perm hn hx).length_eq
  simpa [cont] using this

theorem cont_charge {x : Item} (hn : (idsOf l).Nodup) (hx : x ∈ l) : charge md (cont l) = charge md (cont (del x.id l)) + (x.size + md) := by
  rw [charge_perm (cont_perm hn hx)]; simp only [charge]; omega

/-- a hit, with an exact counter -/
theorem Abs.dataHit (h : Abs cs md l a s) {x : Item} (hx : x ∈ l) {o : Obj Meta} (hid : o.id = x.id) (hf : o.mt.freq = x.cnt) :
    ∃ s', dataHit Counter.exact s o = .ok s' ∧
      Abs cs md ({ x with cnt := x.cnt + 1 } :: del x.id l) (put a .q (cont ({ x with cnt := x.cnt + 1 } :: del x.id l))) s' ∧
      s'.w = s.w ∧ s'.base.nReq = s.base.nReq ∧ s'.base.adm = s.base.adm ∧ s'.picks = s.picks ∧ s'.candVt = s.candVt := by
  obtain ⟨o', g1, g2, g3, g4, g5, g6, g7⟩ := h.obj hx
  have hin : x.id ∈ s.q := by rw [h.q]; exact List.mem_map_of_mem hx
  obtain ⟨nodes', m, k1, k2, k3, k4⟩ := takeFreq_spec (s := { s with q := x.id :: s.q.erase x.id }) h.fr h.min hx
  set x' : Item := { x with cnt := x.cnt + 1 } with hx'
  have hno : x'.id ∉ idsOf (del x.id l) := by
    intro hm
    obtain ⟨y, hy, e⟩ := List.mem_map.1 hm
    exact (mem_del.1 hy).2 e
  obtain ⟨nodes'', k5, k6⟩ := putFreq_spec (s := { s with q := x.id :: s.q.erase x.id, nodes := nodes', minFreq := m, base := s.base.modify x.id (fun o => { o with mt := { o.mt with freq := Counter.exact.inc o.mt.freq } }), maxFreq := if s.maxFreq < x.cnt + 1 then x.cnt + 1 else s.maxFreq }) (x := x') k2 hno (by show 1 ≤ x.cnt + 1; omega)
      (by show s.maxFreq ≤ if s.maxFreq < x.cnt + 1 then x.cnt + 1 else s.maxFreq; split <;> omega)
      (by show x.cnt + 1 ≤ if s.maxFreq < x.cnt + 1 then x.cnt + 1 else s.maxFreq; split <;> omega)
  obtain ⟨m', k7, k8⟩ := settleMin_spec (s := { s with q := x.id :: s.q.erase x.id, nodes := nodes'', minFreq := m, base := s.base.modify x.id (fun o => { o with mt := { o.mt with freq := Counter.exact.inc o.mt.freq } }), maxFreq := if s.maxFreq < x.cnt + 1 then x.cnt + 1 else s.maxFreq }) k6 k3
      (by show s.base.nObj = _; rw [h.nObj, del_length h.nodup hx]; simp)
      (by intro he; rw [k4 he]; show x.cnt < x.cnt + 1; omega)
  refine ⟨{ s with q := x.id :: s.q.erase x.id, nodes := nodes'', minFreq := m', base := s.base.modify x.id (fun o => { o with mt := { o.mt with freq := Counter.exact.inc o.mt.freq } }), maxFreq := if s.maxFreq < x.cnt + 1 then x.cnt + 1 else s.maxFreq }, ?_, ?_, rfl, rfl, rfl, rfl, rfl⟩
  · rw [LeCaR.dataHit, hid, qMoveToHead, if_pos hin, Res.bind_ok, hf, k1, Res.bind_ok]
    have e1 : Counter.exact.inc x.cnt = x'.cnt := rfl
    rw [e1]
    refine (congrArg (fun z => z >>= _) k5).trans ?_
    rw [Res.bind_ok]
    exact congrArg _ k7
  · have hcw : cont (x' :: del x.id l) = (x.id, x.size) :: without x.id (cont l) := by
      rw [← cont_del]; rfl
    refine ⟨?_, h.csz, h.mdz, h.small_modify x.id _ (fun _ => rfl), ?_, put_self _ _ _, ?_, ?_, ?_, ?_, ?_, ?_, ?_, ?_, ?_, k6, k8⟩
    · have := h.rep.move g7 (j := .q) (fun o => { o with mt := { o.mt with freq := Counter.exact.inc o.mt.freq } }) (fun _ => rfl) (fun _ => rfl)
        (fun o'' ho'' => by rw [g1] at ho''; cases ho''; exact g5) (rfl : (s.base.modify x.id _).tbl = _) (l := cont (x' :: del x.id l))
        (by rw [put_self, h.aq, hcw])
      rw [put_put] at this
      exact this
    · intro y hy
      rcases List.mem_cons.1 hy with rfl | hy
      · refine ⟨_, lookup_modify_self (f := fun o => { o with mt := { o.mt with freq := Counter.exact.inc o.mt.freq } }) (fun _ => rfl) g1, ?_⟩
        simp only [item, g2, g3, g4]; rfl
      · obtain ⟨hy1, hy2⟩ := mem_del.1 hy
        obtain ⟨oy, e1, e2⟩ := h.items y hy1
        exact ⟨oy, (lookup_modify_ne (f := fun o => { o with mt := { o.mt with freq := Counter.exact.inc o.mt.freq } }) (fun _ => rfl) hy2).trans e1, e2⟩
    · rw [put_ne _ (by decide)]; exact h.bad
    · show x.id :: s.q.erase x.id = x.id :: idsOf (del x.id l)
      rw [del_ids _ _ h.nodup, h.q]
    · rw [put_ne _ (by decide)]; exact h.gLru
    · rw [put_ne _ (by decide)]; exact h.gLfu
    · rw [put_ne _ (by decide)]; exact h.lruB
    · rw [put_ne _ (by decide)]; exact h.lfuB
    · show s.base.occ = _
      rw [h.occ, cont_charge h.nodup hx]; simp only [cont, List.map_cons, charge, x']; omega
    · show s.base.nObj = _
      rw [h.nObj, del_length h.nodup hx]; rfl
    · have := h.cap
      rw [cont_charge h.nodup hx] at this
      simp only [cont, List.map_cons, charge, x'] at this ⊢; omega

/-- a request for a ghost -/
theorem Abs.ghostHit (h : Abs cs md l a s) {id : ObjId} {o : Obj Meta} (ho : s.base.lookup id = some o) (hg : o.mt.ghost = true) :
    ∃ s' k, kind o.mt = k ∧ k ≠ .q ∧ (id, o.size) ∈ a k ∧ ghostHit s o = .ok s' ∧ Abs cs md l (put a k (without id (a k))) s' ∧
      s'.w = (match k with
        | .gLru => R.updLru s.w (s.base.nReq - o.mt.vtime)
        | .gLfu => R.updLfu s.w (s.base.nReq - o.mt.vtime)
        | _ => s.w) ∧
      s'.base.nReq = s.base.nReq ∧ s'.base.adm = s.base.adm ∧ s'.picks = s.picks ∧ s'.candVt = s.candVt := by
  obtain ⟨hm, hid⟩ := lookup_some_mem ho
  have hmem := h.rep.mem_of ho
  have hlt := h.small o hm
  have hk : kind o.mt ≠ .q := by
    rw [kind, if_neg (by rw [hg]; decide)]
    split
    · decide
    · split
      · decide
      · split <;> decide
  have hsm : ∀ o' ∈ (s.base.del id).tbl, o'.size + md < u32 := fun o' ho' => h.small o' (List.mem_of_mem_eraseP ho')
  have hit : ∀ x ∈ l, ∃ o, (s.base.del id).lookup x.id = some o ∧ item o = x := by
    intro x hx
    rw [Lists.lookup_del h.rep.nodup]
    have hne : x.id ≠ id := by
      intro e
      obtain ⟨o', g1, _, _, _, g5, _⟩ := h.obj hx
      rw [e, ho] at g1
      cases g1
      exact hk g5
    rw [if_neg hne]
    exact h.items x hx
  have hbad : kind o.mt ≠ .bad := by
    intro e; rw [e, h.bad] at hmem; simp at hmem
  have hq : put a (kind o.mt) (without id (a (kind o.mt))) .q = cont l := by rw [put_ne _ (Ne.symm hk)]; exact h.aq
  have hb : put a (kind o.mt) (without id (a (kind o.mt))) .bad = [] := by rw [put_ne _ (Ne.symm hbad)]; exact h.bad
  by_cases e1 : o.mt.expert = 1
  · have hkk : kind o.mt = .gLru := by rw [kind, if_neg (by rw [hg]; decide), if_pos e1]
    rw [hkk] at hmem hq hb hk
    have hin : o.id ∈ s.gLru := by rw [h.gLru, hid]; exact List.mem_map_of_mem hmem
    refine ⟨{ s with w := R.updLru s.w (s.base.nReq - o.mt.vtime), gLru := s.gLru.erase id, lruB := s.lruB - osz s o, base := s.base.del id }, .gLru, hkk, hk, hmem, ?_, ?_, rfl, rfl, rfl, rfl, rfl⟩
    · rw [LeCaR.ghostHit, if_pos e1, qRemove, if_pos hin, Res.bind_ok, hid]
    · refine ⟨h.rep.del hmem rfl, h.csz, h.mdz, hsm, hit, hq, hb, h.q, ?_, ?_, ?_, ?_, h.occ, h.nObj, h.cap, h.fr, h.min⟩
      · show s.gLru.erase id = _
        rw [put_self, without_ids _ _ (h.rep.nd _), h.gLru]
      · rw [put_ne _ (by decide)]; exact h.gLfu
      · show s.lruB - osz s o = _
        rw [put_self, h.osz_eq hlt, h.lruB, without_charge (h.rep.nd _) hmem]; simp only; omega
      · rw [put_ne _ (by decide)]; exact h.lfuB
  · by_cases e2 : o.mt.expert = 2
    · have hkk : kind o.mt = .gLfu := by rw [kind, if_neg (by rw [hg]; decide), if_neg e1, if_pos e2]
      rw [hkk] at hmem hq hb hk
      have hin : o.id ∈ s.gLfu := by rw [h.gLfu, hid]; exact List.mem_map_of_mem hmem
      refine ⟨{ s with w := R.updLfu s.w (s.base.nReq - o.mt.vtime), gLfu := s.gLfu.erase id, lfuB := s.lfuB - osz s o, base := s.base.del id }, .gLfu, hkk, hk, hmem, ?_, ?_, rfl, rfl, rfl, rfl, rfl⟩
      · rw [LeCaR.ghostHit, if_neg e1, if_pos e2, qRemove, if_pos hin, Res.bind_ok, hid]
      · refine ⟨h.rep.del hmem rfl, h.csz, h.mdz, hsm, hit, hq, hb, h.q, ?_, ?_, ?_, ?_, h.occ, h.nObj, h.cap, h.fr, h.min⟩
        · rw [put_ne _ (by decide)]; exact h.gLru
        · show s.gLfu.erase id = _
          rw [put_self, without_ids _ _ (h.rep.nd _), h.gLfu]
        · rw [put_ne _ (by decide)]; exact h.lruB
        · show s.lfuB - osz s o = _
          rw [put_self, h.osz_eq hlt, h.lfuB, without_charge (h.rep.nd _) hmem]; simp only; omega
    · have e3 : o.mt.expert = -1 := by
        by_contra e3
        apply hbad
        rw [kind, if_neg (by rw [hg]; decide), if_neg e1, if_neg e2, if_neg e3]
      have hkk : kind o.mt = .both := by rw [kind, if_neg (by rw [hg]; decide), if_neg e1, if_neg e2, if_pos e3]
      rw [hkk] at hmem hq hb hk
      refine ⟨{ s with base := s.base.del id }, .both, hkk, hk, hmem, ?_, ?_, rfl, rfl, rfl, rfl, rfl⟩
      · rw [LeCaR.ghostHit, if_neg e1, if_neg e2, if_pos e3, hid]
      · refine ⟨h.rep.del hmem rfl, h.csz, h.mdz, hsm, hit, hq, hb, h.q, ?_, ?_, ?_, ?_, h.occ, h.nObj, h.cap, h.fr, h.min⟩
        · rw [put_ne _ (by decide)]; exact h.gLru
        · rw [put_ne _ (by decide)]; exact h.gLfu
        · rw [put_ne _ (by decide)]; exact h.lruB
        · rw [put_ne _ (by decide)]; exact h.lfuB

/-- deleting a ghost from the hash table -/
theorem Abs.drop (h : Abs cs md l a s) {k : Kind} (hk : k ≠ .q) {x : ObjId × Nat} (hx : x ∈ a k) :
    Rep kind (put a k (without x.1 (a k))) (s.base.del x.1) ∧ (∀ o' ∈ (s.base.del x.1).tbl, o'.size + md < u32) ∧
      (∀ y ∈ l, ∃ o, (s.base.del x.1).lookup y.id = some o ∧ item o = y) := by
  refine ⟨h.rep.del hx rfl, fun o' ho' => h.small o' (List.mem_of_mem_eraseP ho'), fun y hy => ?_⟩
  rw [Lists.lookup_del h.rep.nodup]
  obtain ⟨o', g1, _, _, _, g5, _, g7⟩ := h.obj hy
  have hne : y.id ≠ x.1 := by
    intro e
    exact hk (h.rep.unique hx g7 e.symm).1
  rw [if_neg hne]
  exact h.items y hy

theorem trimLru_spec (n : Nat) : ∀ {s : State R} {a : Kind → Contents}, Abs cs md l a s → (a .gLru).length ≤ n →
    ∃ s' c, trimLru n s = .ok s' ∧ TrimmedTo md (cs / 2) (a .gLru) c ∧ Abs cs md l (put a .gLru c) s' ∧
      s'.w = s.w ∧ s'.base.nReq = s.base.nReq ∧ s'.base.adm = s.base.adm ∧ s'.picks = s.picks ∧ s'.candVt = s.candVt := by
  induction n with
  | zero =>
    intro s a h hn
    have h0 : a .gLru = [] := List.length_eq_zero_iff.1 (by omega)
    have hc : ¬ s.lruB > (s.base.cacheSize / 2 : Nat) := by rw [h.lruB, h0]; simp only [charge]; omega
    refine ⟨s, [], ?_, ⟨[], by simp [h0], by simp [bytes], by simp⟩, ?_, rfl, rfl, rfl, rfl, rfl⟩
    · rw [trimLru, if_neg hc]
    · have : put a .gLru [] = a := by funext j; by_cases e : j = .gLru <;> simp [put, e, h0]
      rw [this]; exact h
  | succ n ih =>
    intro s a h hn
    by_cases hc : s.lruB > (s.base.cacheSize / 2 : Nat)
    · have hpos : 0 < charge md (a .gLru) := by rw [h.lruB, h.csz] at hc; omega
      obtain ⟨d, x, hd⟩ := last_of_pos hpos
      have hx : x ∈ a .gLru := by rw [hd]; simp
      obtain ⟨o, g1, g2, _⟩ := h.rep.lookup hx
      have hwo : without x.1 (a .gLru) = d := by rw [hd]; exact without_last (by rw [← hd]; exact h.rep.nd _)
      have hch := without_charge (md := md) (h.rep.nd _) hx
      rw [hwo] at hch
      have hlt := h.small o (lookup_some_mem g1).1
      obtain ⟨d1, d2, d3⟩ := h.drop (by decide) hx
      rw [hwo] at d1
      have htail : s.gLru.getLast? = some x.1 := by rw [h.gLru, hd]; simp [Contents.ids]
      have habs : Abs cs md l (put a .gLru d) { s with lruB := s.lruB - osz s o, gLru := s.gLru.dropLast, base := s.base.del x.1 } := by
        refine ⟨d1, h.csz, h.mdz, d2, d3, ?_, ?_, h.q, ?_, ?_, ?_, ?_, h.occ, h.nObj, h.cap, h.fr, h.min⟩
        · rw [put_ne _ (by decide)]; exact h.aq
        · rw [put_ne _ (by decide)]; exact h.bad
        · show s.gLru.dropLast = _
          rw [put_self, h.gLru, hd]; simp [Contents.ids]
        · rw [put_ne _ (by decide)]; exact h.gLfu
        · show s.lruB - osz s o = _
          rw [put_self, h.osz_eq hlt, h.lruB, hch, g2]; omega
        · rw [put_ne _ (by decide)]; exact h.lfuB
      obtain ⟨s', c, k1, ⟨t, t1, t2, t3⟩, k3, k4⟩ := ih habs (by rw [put_self]; rw [hd] at hn; simpa using hn)
      rw [put_self] at t1
      rw [put_put] at k3
      refine ⟨s', c, ?_, ⟨t ++ [x], by rw [hd, t1, List.append_assoc], t2, ?_⟩, k3, k4⟩
      · rw [trimLru, if_pos hc, qTail, htail]
        simp only [Res.bind_ok, g1]
        exact k1
      · intro y t' ht
        cases t with
        | nil =>
          simp only [List.nil_append, List.cons.injEq] at ht
          rw [← ht.1]
          simp only [List.append_nil] at t1
          rw [← t1, ← hd, bytes_eq_charge]
          rw [h.lruB, h.csz] at hc; omega
        | cons z t =>
          simp only [List.cons_append, List.cons.injEq] at ht
          rw [← ht.1]
          exact t3 z t rfl
    · refine ⟨s, a .gLru, ?_, ⟨[], by simp, ?_, by simp⟩, ?_, rfl, rfl, rfl, rfl, rfl⟩
      · rw [trimLru, if_neg hc]
      · rw [bytes_eq_charge]; rw [h.lruB, h.csz] at hc; omega
      · have : put a .gLru (a .gLru) = a := by funext j; by_cases e : j = .gLru <;> simp [put, e]
        rw [this]; exact h

theorem trimLfu_spec (n : Nat) : ∀ {s : State R} {a : Kind → Contents}, Abs cs md l a s → (a .gLfu).length ≤ n →
    ∃ s' c, trimLfu n s = .ok s' ∧ TrimmedTo md (cs / 2) (a .gLfu) c ∧ Abs cs md l (put a .gLfu c) s' ∧
      s'.w = s.w ∧ s'.base.nReq = s.base.nReq ∧ s'.base.adm = s.base.adm ∧ s'.picks = s.picks ∧ s'.candVt = s.candVt := by
  induction n with
  | zero =>
    intro s a h hn
    have h0 : a .gLfu = [] := List.length_eq_zero_iff.1 (by omega)
    have hc : ¬ s.lfuB > (s.base.cacheSize / 2 : Nat) := by rw [h.lfuB, h0]; simp only [charge]; omega
    refine ⟨s, [], ?_, ⟨[], by simp [h0], by simp [bytes], by simp⟩, ?_, rfl, rfl, rfl, rfl, rfl⟩
    · rw [trimLfu, if_neg hc]
    · have : put a .gLfu [] = a := by funext j; by_cases e : j = .gLfu <;> simp [put, e, h0]
      rw [this]; exact h
  | succ n ih =>
    intro s a h hn
    by_cases hc : s.lfuB > (s.base.cacheSize / 2 : Nat)
    · have hpos : 0 < charge md (a .gLfu) := by rw [h.lfuB, h.csz] at hc; omega
      obtain ⟨d, x, hd⟩ := last_of_pos hpos
      have hx : x ∈ a .gLfu := by rw [hd]; simp
      obtain ⟨o, g1, g2, _⟩ := h.rep.lookup hx
      have hwo : without x.1 (a .gLfu) = d := by rw [hd]; exact without_last (by rw [← hd]; exact h.rep.nd _)
      have hch := without_charge (md := md) (h.rep.nd _) hx
      rw [hwo] at hch
      have hlt := h.small o (lookup_some_mem g1).1
      obtain ⟨d1, d2, d3⟩ := h.drop (by decide) hx
      rw [hwo] at d1
      have htail : s.gLfu.getLast? = some x.1 := by rw [h.gLfu, hd]; simp [Contents.ids]
      have habs : Abs cs md l (put a .gLfu d) { s with lfuB := s.lfuB - osz s o, gLfu := s.gLfu.dropLast, base := s.base.del x.1 } := by
        refine ⟨d1, h.csz, h.mdz, d2, d3, ?_, ?_, h.q, ?_, ?_, ?_, ?_, h.occ, h.nObj, h.cap, h.fr, h.min⟩
        · rw [put_ne _ (by decide)]; exact h.aq
        · rw [put_ne _ (by decide)]; exact h.bad
        · rw [put_ne _ (by decide)]; exact h.gLru
        · show s.gLfu.dropLast = _
          rw [put_self, h.gLfu, hd]; simp [Contents.ids]
        · rw [put_ne _ (by decide)]; exact h.lruB
        · show s.lfuB - osz s o = _
          rw [put_self, h.osz_eq hlt, h.lfuB, hch, g2]; omega
      obtain ⟨s', c, k1, ⟨t, t1, t2, t3⟩, k3, k4⟩ := ih habs (by rw [put_self]; rw [hd] at hn; simpa using hn)
      rw [put_self] at t1
      rw [put_put] at k3
      refine ⟨s', c, ?_, ⟨t ++ [x], by rw [hd, t1, List.append_assoc], t2, ?_⟩, k3, k4⟩
      · rw [trimLfu, if_pos hc, qTail, htail]
        simp only [Res.bind_ok, g1]
        exact k1
      · intro y t' ht
        cases t with
        | nil =>
          simp only [List.nil_append, List.cons.injEq] at ht
          rw [← ht.1]
          simp only [List.append_nil] at t1
          rw [← t1, ← hd, bytes_eq_charge]
          rw [h.lfuB, h.csz] at hc; omega
        | cons z t =>
          simp only [List.cons_append, List.cons.injEq] at ht
          rw [← ht.1]
          exact t3 z t rfl
    · refine ⟨s, a .gLfu, ?_, ⟨[], by simp, ?_, by simp⟩, ?_, rfl, rfl, rfl, rfl, rfl⟩
      · rw [trimLfu, if_neg hc]
      · rw [bytes_eq_charge]; rw [h.lfuB, h.csz] at hc; omega
      · have : put a .gLfu (a .gLfu) = a := by funext j; by_cases e : j = .gLfu <;> simp [put, e]
        rw [this]; exact h


theorem charge_without_le (md : Nat) (id : ObjId) (c : Contents) : charge md (without id c) ≤ charge md c := by
  induction c with
  | nil => exact Nat.le_refl _
  | cons x c ih =>
    by_cases e : x.1 ≠ id
    · rw [without, List.filter_cons_of_pos (by simpa using e)]; simp only [charge]; have := ih; simp only [without] at this; omega
    · rw [without, List.filter_cons_of_neg (by simpa using e)]; simp only [charge]; have := ih; simp only [without] at this; omega

/-- The effect of an eviction by expert `e` on the ghosts. -/
def Retires (cs md : Nat) (e : Int) (x : ObjId × Nat) (a a' : Kind → Contents) : Prop :=
  (e = 1 ∧ TrimmedTo md (cs / 2) (x :: a .gLru) (a' .gLru) ∧ a' .gLfu = a .gLfu ∧ a' .both = a .both) ∨
  (e = 2 ∧ TrimmedTo md (cs / 2) (x :: a .gLfu) (a' .gLfu) ∧ a' .gLru = a .gLru ∧ a' .both = a .both) ∨
  (e = -1 ∧ a' .both = x :: a .both ∧ a' .gLru = a .gLru ∧ a' .gLfu = a .gLfu)

theorem Abs.retire (h : Abs cs md l a s) {x : Item} (hx : x ∈ l) {o : Obj Meta} (ho : s.base.lookup x.id = some o) {e : Int} (he : e = 1 ∨ e = 2 ∨ e = -1) :
    ∃ s' a', retire s o e = .ok s' ∧ Abs cs md (del x.id l) a' s' ∧ Retires cs md e x.entry a a' ∧
      s'.w = s.w ∧ s'.base.nReq = s.base.nReq ∧ s'.base.adm = s.base.adm ∧ s'.picks = s.picks ∧ s'.candVt = s.candVt := by
  obtain ⟨o', g1, g2, g3, g4, g5, g6, g7⟩ := h.obj hx
  rw [ho] at g1
  cases g1
  have hin : x.id ∈ s.q := by rw [h.q]; exact List.mem_map_of_mem hx
  set F : Obj Meta → Obj Meta := fun o => { o with mt := { o.mt with ghost := true, expert := e, vtime := Int.bmod s.base.nReq (2 ^ 40) } } with hF
  obtain ⟨nodes', m, k1, k2, k3, _⟩ := takeFreq_spec (s := { s with q := s.q.erase x.id, base := s.base.modify x.id F }) h.fr h.min hx
  set B : Base Meta := { s.base.modify x.id F with occ := s.base.occ - (((o.size + s.base.objMd) % u32 : Nat) : Int), nObj := s.base.nObj - 1 } with hB
  have hlk : (s.base.modify x.id F).lookup x.id = some (F o) := lookup_modify_self (fun _ => rfl) ho
  have hkeep : (s.base.modify x.id F).removeObjBaseKeep x.id = .ok B := by
    rw [Base.removeObjBaseKeep, hlk]
    rfl
  -- what does not depend on the expert
  have hrep : ∀ k, kind (F o).mt = k → k ≠ .q → Rep kind (put (put a .q (cont (del x.id l))) k (x.entry :: a k)) B := by
    intro k hk hkq
    have := h.rep.move g7 (j := k) F (fun _ => rfl) (fun _ => rfl) (fun o'' ho'' => by rw [ho] at ho''; cases ho''; exact hk)
      (rfl : (s.base.modify x.id F).tbl = _) (l := x.entry :: a k) (by rw [put_ne _ hkq])
    rw [h.aq, ← cont_del] at this
    exact this.congr rfl
  have hsm : ∀ o ∈ B.tbl, o.size + md < u32 := h.small_modify x.id F (fun _ => rfl)
  have hit : ∀ y ∈ del x.id l, ∃ o, B.lookup y.id = some o ∧ item o = y := by
    intro y hy
    obtain ⟨hy1, hy2⟩ := mem_del.1 hy
    obtain ⟨oy, e1, e2⟩ := h.items y hy1
    exact ⟨oy, (lookup_modify_ne (f := F) (fun _ => rfl) hy2).trans e1, e2⟩
  have hq : s.q.erase x.id = idsOf (del x.id l) := by rw [del_ids _ _ h.nodup, h.q]
  have hocc : B.occ = (charge md (cont (del x.id l)) : Nat) := by
    show s.base.occ - _ = _
    rw [h.mdz, Nat.mod_eq_of_lt g6, h.occ, cont_charge h.nodup hx, g3]; omega
  have hnob : B.nObj = ((del x.id l).length : Nat) := by
    show s.base.nObj - 1 = _
    rw [h.nObj, del_length h.nodup hx]; omega
  have hcap : charge md (cont (del x.id l)) ≤ cs := by
    have := h.cap
    rw [cont_charge h.nodup hx] at this; omega
  have hosz : osz s o = (x.size + md : Nat) := by rw [h.osz_eq g6, g3]
  have hnotin : ∀ k, k ≠ .q → x.id ∉ (a k).ids := by
    intro k hk hm
    obtain ⟨y, hy, hye⟩ := List.mem_map.1 hm
    exact hk (h.rep.unique hy g7 hye).1
  have hstart : ∀ (rest : State R → Res (State R)), (qRemove s.q o.id >>= fun q' =>
      takeFreq { s with q := q', base := s.base.modify o.id F } o.id o.mt.freq >>= fun s1 =>
      s1.base.removeObjBaseKeep o.id >>= fun b => rest { s1 with base := b }) = rest { s with q := s.q.erase x.id, nodes := nodes', minFreq := m, base := B } := by
    intro rest
    rw [g2, qRemove, if_pos hin, Res.bind_ok, g4, k1, Res.bind_ok]
    simp only
    rw [hkeep, Res.bind_ok]
  rcases he with rfl | rfl | rfl
  · have hk : kind (F o).mt = .gLru := rfl
    have hg : o.id ∉ s.gLru := by rw [g2, h.gLru]; exact hnotin _ (by decide)
    have habs : Abs cs md (del x.id l) (put (put a .q (cont (del x.id l))) .gLru (x.entry :: a .gLru))
        { s with q := s.q.erase x.id, nodes := nodes', minFreq := m, base := B, gLru := o.id :: s.gLru, lruB := s.lruB + osz s o } := by
      refine ⟨hrep _ hk (by decide), h.csz, h.mdz, hsm, hit, ?_, ?_, hq, ?_, ?_, ?_, ?_, hocc, hnob, hcap, k2, k3⟩
      · rw [put_ne _ (by decide), put_self]
      · rw [put_ne _ (by decide), put_ne _ (by decide)]; exact h.bad
      · rw [put_self]; show o.id :: s.gLru = _; rw [g2, h.gLru]; rfl
      · rw [put_ne _ (by decide), put_ne _ (by decide)]; exact h.gLfu
      · rw [put_self]; show s.lruB + osz s o = _; rw [hosz, h.lruB]; simp only [charge]; omega
      · rw [put_ne _ (by decide), put_ne _ (by decide)]; exact h.lfuB
    obtain ⟨s', c, t1, t2, t3, t4⟩ := trimLru_spec (o.id :: s.gLru).length habs (by rw [put_self, h.gLru]; simp [Contents.ids])
    rw [put_self] at t2
    rw [put_put] at t3
    refine ⟨s', _, ?_, t3, Or.inl ⟨rfl, by rw [put_self]; exact t2, by rw [put_ne _ (by decide), put_ne _ (by decide)], by rw [put_ne _ (by decide), put_ne _ (by decide)]⟩, t4⟩
    refine (hstart (fun s1 => qPrepend s1.gLru o.id >>= fun g => trimLru g.length { s1 with gLru := g, lruB := s1.lruB + osz s o })).trans ?_
    simp only [qPrepend, if_neg hg, Res.bind_ok]
    exact t1
  · have hk : kind (F o).mt = .gLfu := rfl
    have hg : o.id ∉ s.gLfu := by rw [g2, h.gLfu]; exact hnotin _ (by decide)
    have habs : Abs cs md (del x.id l) (put (put a .q (cont (del x.id l))) .gLfu (x.entry :: a .gLfu))
        { s with q := s.q.erase x.id, nodes := nodes', minFreq := m, base := B, gLfu := o.id :: s.gLfu, lfuB := s.lfuB + osz s o } := by
      refine ⟨hrep _ hk (by decide), h.csz, h.mdz, hsm, hit, ?_, ?_, hq, ?_, ?_, ?_, ?_, hocc, hnob, hcap, k2, k3⟩
      · rw [put_ne _ (by decide), put_self]
      · rw [put_ne _ (by decide), put_ne _ (by decide)]; exact h.bad
      · rw [put_ne _ (by decide), put_ne _ (by decide)]; exact h.gLru
      · rw [put_self]; show o.id :: s.gLfu = _; rw [g2, h.gLfu]; rfl
      · rw [put_ne _ (by decide), put_ne _ (by decide)]; exact h.lruB
      · rw [put_self]; show s.lfuB + osz s o = _; rw [hosz, h.lfuB]; simp only [charge]; omega
    obtain ⟨s', c, t1, t2, t3, t4⟩ := trimLfu_spec (o.id :: s.gLfu).length habs (by rw [put_self, h.gLfu]; simp [Contents.ids])
    rw [put_self] at t2
    rw [put_put] at t3
    refine ⟨s', _, ?_, t3, Or.inr (Or.inl ⟨rfl, by rw [put_self]; exact t2, by rw [put_ne _ (by decide), put_ne _ (by decide)], by rw [put_ne _ (by decide), put_ne _ (by decide)]⟩), t4⟩
    refine (hstart (fun s1 => qPrepend s1.gLfu o.id >>= fun g => trimLfu g.length { s1 with gLfu := g, lfuB := s1.lfuB + osz s o })).trans ?_
    simp only [qPrepend, if_neg hg, Res.bind_ok]
    exact t1
  · have hk : kind (F o).mt = .both := rfl
    refine ⟨{ s with q := s.q.erase x.id, nodes := nodes', minFreq := m, base := B }, put (put a .q (cont (del x.id l))) .both (x.entry :: a .both), ?_, ?_,
      Or.inr (Or.inr ⟨rfl, by rw [put_self], by rw [put_ne _ (by decide), put_ne _ (by decide)], by rw [put_ne _ (by decide), put_ne _ (by decide)]⟩), rfl, rfl, rfl, rfl, rfl⟩
    · exact hstart (fun s1 => .ok s1)
    · refine ⟨hrep _ hk (by decide), h.csz, h.mdz, hsm, hit, ?_, ?_, hq, ?_, ?_, ?_, ?_, hocc, hnob, hcap, k2, k3⟩
      · rw [put_ne _ (by decide), put_self]
      · rw [put_ne _ (by decide), put_ne _ (by decide)]; exact h.bad
      · rw [put_ne _ (by decide), put_ne _ (by decide)]; exact h.gLru
      · rw [put_ne _ (by decide), put_ne _ (by decide)]; exact h.gLfu
      · rw [put_ne _ (by decide), put_ne _ (by decide)]; exact h.lruB
      · rw [put_ne _ (by decide), put_ne _ (by decide)]; exact h.lfuB

theorem getLast_view (h : Abs cs md l a s) {d : List Item} {v : Item} (hl : l = d ++ [v]) : s.q.getLast? = some v.id := by
  rw [h.q, hl]; simp [idsOf]

theorem takesLFU_unique {m m' : List Item} {v v' : Item} (h : TakesLFU l v m) (h' : TakesLFU l v' m') : v = v' := by
  obtain ⟨a, b, h1, _, h3, h4⟩ := h
  obtain ⟨a', b', h1', _, h3', h4'⟩ := h'
  have hv : v ∈ l := by rw [h1]; simp
  have hv' : v' ∈ l := by rw [h1']; simp
  have e1 := h3 v' hv'
  have e2 := h3' v hv
  rw [h1] at h1'
  rcases List.append_eq_append_iff.1 h1' with ⟨c, hc1, hc2⟩ | ⟨c, hc1, hc2⟩
  · cases c with
    | nil => simp at hc2; exact hc2.1
    | cons z c =>
      simp only [List.cons_append, List.cons.injEq] at hc2
      have : v' ∈ b := by rw [hc2.2]; simp
      have := h4 v' this
      omega
  · cases c with
    | nil => simp at hc2; exact hc2.1.symm
    | cons z c =>
      simp only [List.cons_append, List.cons.injEq] at hc2
      have : v ∈ b' := by rw [hc2.2]; simp
      have := h4' v this
      omega

/-- the value of `evict_expert` -/
def code : Expert → Int
  | .lru => 1
  | .lfu => 2
  | .both => -1

theorem Abs.evict_go (h : Abs cs md l a s) {v u : Item} (hlast : s.q.getLast? = some v.id) (k1 : lfuFirst s = .ok (some u.id)) {w : Item} {e : Expert} {c : Int} {ps : List Nat} (hw : w ∈ l)
    (hch : choose s (some v.id) (some u.id) = (some w.id, code e, { s with candVt := c, picks := ps })) :
    ∃ s' a', LeCaR.evict s = .ok s' ∧ Abs cs md (del w.id l) a' s' ∧ Retires cs md (code e) w.entry a a' ∧
      s'.w = s.w ∧ s'.base.nReq = s.base.nReq ∧ s'.base.adm = s.base.adm ∧ s'.picks = ps ∧ s'.candVt = c := by
  obtain ⟨o, ho, _⟩ := h.items w hw
  obtain ⟨s', a', t1, t2, t3, t4, t5, t6, t7, t8⟩ := Abs.retire (h.frame s.base.nReq s.base.adm s.w ps c) hw ho (e := code e) (by cases e <;> simp [code])
  refine ⟨s', a', ?_, t2, t3, t4, t5, t6, t7, t8⟩
  rw [LeCaR.evict, k1, Res.bind_ok, hlast, hch]
  simp only [ho]
  exact t1

theorem Abs.last (h : Abs cs md l a s) (hne : l ≠ []) : ∃ v, v ∈ l ∧ s.q.getLast? = some v.id ∧ TakesLRU l v (del v.id l) := by
  obtain ⟨d, v, hl⟩ : ∃ d v, l = d ++ [v] := by
    rcases List.eq_nil_or_concat l with h0 | ⟨d, v, h0⟩
    · exact absurd h0 hne
    · exact ⟨d, v, by rw [h0]; simp⟩
  refine ⟨v, by rw [hl]; simp, getLast_view h hl, ?_⟩
  have : del v.id l = d := by rw [hl]; have := del_split (a := d) (b := []) (x := v) (hl ▸ h.nodup); simpa using this
  rw [this]; exact hl

theorem takesLRU_unique {m m' : List Item} {v v' : Item} (h : TakesLRU l v m) (h' : TakesLRU l v' m') : v = v' := by
  have h : l = m ++ [v] := h
  have h' : l = m' ++ [v'] := h'
  rw [h] at h'
  simpa using (List.append_inj' h' rfl).2

/-- An eviction without a candidate. -/
theorem Abs.evict (h : Abs cs md l a s) (hne : l ≠ []) (hc : s.candVt ≠ (s.base.nReq : Int)) :
    ∃ s' a' v e, evict s = .ok s' ∧ v ∈ l ∧ Abs cs md (del v.id l) a' s' ∧ Chooses (R.lruWins s.w) l s.picks v e (del v.id l) s'.picks ∧ Retires cs md (code e) v.entry a a' ∧
      s'.w = s.w ∧ s'.base.nReq = s.base.nReq ∧ s'.base.adm = s.base.adm ∧ s'.candVt = s.candVt := by
  obtain ⟨u, hu, k1, k2⟩ := lfuFirst_spec h.fr h.min hne
  obtain ⟨v, hv, hlast, hlru⟩ := h.last hne
  have huv : (some v.id = some u.id) ↔ v = u := by
    constructor
    · intro e; exact item_unique h.nodup hv hu (by simpa using e)
    · rintro rfl; rfl
  by_cases e : v = u
  · subst e
    obtain ⟨s', a', t1, t2, t3, t4, t5, t6, t7, t8⟩ := h.evict_go (e := .both) (c := s.candVt) (ps := s.picks) hlast k1 hv (by rw [choose, if_neg hc, if_pos rfl, code])
    exact ⟨s', a', v, .both, t1, hv, t2, Or.inl ⟨hlru, k2, rfl, t7⟩, t3, t4, t5, t6, t8⟩
  · have hnb : ¬ ∃ w m, TakesLRU l w m ∧ TakesLFU l w m := by
      rintro ⟨w, m, h1, h2⟩
      exact e ((takesLRU_unique hlru h1).trans (takesLFU_unique h2 k2))
    by_cases hw : R.lruWins s.w (s.picks.headD 0) = true
    · obtain ⟨s', a', t1, t2, t3, t4, t5, t6, t7, t8⟩ := h.evict_go (e := .lru) (c := s.candVt) (ps := s.picks.tail) hlast k1 hv
        (by rw [choose, if_neg hc, if_neg (fun h => e (huv.1 h)), if_pos hw, code])
      exact ⟨s', a', v, .lru, t1, hv, t2, Or.inr ⟨hnb, t7, by rw [if_pos hw]; exact ⟨hlru, rfl⟩⟩, t3, t4, t5, t6, t8⟩
    · obtain ⟨s', a', t1, t2, t3, t4, t5, t6, t7, t8⟩ := h.evict_go (e := .lfu) (c := s.candVt) (ps := s.picks.tail) hlast k1 hu
        (by rw [choose, if_neg hc, if_neg (fun h => e (huv.1 h)), if_neg hw, code])
      exact ⟨s', a', u, .lfu, t1, hu, t2, Or.inr ⟨hnb, t7, by rw [if_neg hw]; exact ⟨k2, rfl⟩⟩, t3, t4, t5, t6, t8⟩

/-- An eviction right after `to_evict`. -/
theorem Abs.evictCand (h : Abs cs md l a s) (hne : l ≠ []) (hc : s.candVt = (s.base.nReq : Int)) :
    ∃ s' a' v e, LeCaR.evict s = .ok s' ∧ v ∈ l ∧ Abs cs md (del v.id l) a' s' ∧ TakesLRU l v (del v.id l) ∧ Retires cs md (code e) v.entry a a' := by
  obtain ⟨u, hu, k1, k2⟩ := lfuFirst_spec h.fr h.min hne
  obtain ⟨v, hv, hlast, hlru⟩ := h.last hne
  by_cases e : (some v.id = some u.id)
  · obtain ⟨s', a', t1, t2, t3, _⟩ := h.evict_go (e := .both) (c := -1) (ps := s.picks) hlast k1 hv (by rw [choose, if_pos hc, if_pos e, code])
    exact ⟨s', a', v, .both, t1, hv, t2, hlru, t3⟩
  · obtain ⟨s', a', t1, t2, t3, _⟩ := h.evict_go (e := .lru) (c := -1) (ps := s.picks) hlast k1 hv (by rw [choose, if_pos hc, if_neg e, code])
    exact ⟨s', a', v, .lru, t1, hv, t2, hlru, t3⟩

theorem Retires.bounded {e : Int} {x : ObjId × Nat} {a' : Kind → Contents} (h : Retires cs md e x a a') (hb : Bounded cs md a) : Bounded cs md a' := by
  rcases h with ⟨_, ⟨_, _, h1, _⟩, h2, _⟩ | ⟨_, ⟨_, _, h1, _⟩, h2, _⟩ | ⟨_, _, h1, h2⟩
  · exact ⟨by rw [← bytes_eq_charge]; exact h1, by rw [h2]; exact hb.2⟩
  · exact ⟨by rw [h2]; exact hb.1, by rw [← bytes_eq_charge]; exact h1⟩
  · exact ⟨by rw [h1]; exact hb.1, by rw [h2]; exact hb.2⟩

theorem Abs.insert (h : Abs cs md l a s) (r : Req) (hn : s.base.lookup r.id = none) (hroom : charge md (cont l) + r.size + md ≤ cs) (hsm : r.size + md < u32) :
    ∃ s', insert s r = .ok s' ∧ Abs cs md (⟨r.id, r.size % u32, 1⟩ :: l) (put a .q (cont (⟨r.id, r.size % u32, 1⟩ :: l))) s' ∧
      s'.w = s.w ∧ s'.base.nReq = s.base.nReq ∧ s'.base.adm = s.base.adm ∧ s'.picks = s.picks ∧ s'.candVt = s.candVt := by
  have hnq : r.id ∉ idsOf l := by
    intro hm
    obtain ⟨x, hx, e⟩ := List.mem_map.1 hm
    obtain ⟨o, ho, _⟩ := h.items x hx
    rw [e, hn] at ho; cases ho
  have hnq' : r.id ∉ s.q := by rw [h.q]; exact hnq
  have hmod : r.size % u32 = r.size := Nat.mod_eq_of_lt (by omega)
  obtain ⟨nd, hnd⟩ := h.fr.one
  have hq1 : nd.q = withCnt l 1 := by rw [← h.fr.qs, qOf_some hnd]
  have hno1 : r.id ∉ nd.q := by
    rw [hq1, mem_withCnt]
    rintro ⟨x, hx, _, e⟩
    exact hnq (e ▸ List.mem_map_of_mem hx)
  obtain ⟨nodes', p1, p2⟩ := putFreq_spec (s := s) (x := ⟨r.id, r.size % u32, 1⟩) h.fr hnq (Nat.le_refl _) (Nat.le_refl _) h.fr.mx
  have hnodes : nodes' = setNode s.nodes 1 (some ⟨nd.n + 1, nd.q ++ [r.id]⟩) := by
    simp only [putFreq, hnd, Option.getD_some, qAppend, if_neg hno1, Res.bind_ok] at p1
    injection p1 with p1
    exact (congrArg State.nodes p1).symm
  have hlk : ∀ y, (s.base.insertBase ⟨1, false, 0, 0⟩ r).lookup y = if y = r.id then some (Obj.ofReq ⟨1, false, 0, 0⟩ r) else s.base.lookup y :=
    fun y => lookup_insertBase _ _ _ _
  refine ⟨{ s with base := s.base.insertBase ⟨1, false, 0, 0⟩ r, q := r.id :: s.q, minFreq := 1, nodes := nodes' }, ?_,
    ⟨?_, h.csz, h.mdz, ?_, ?_, put_self _ _ _, ?_, ?_, ?_, ?_, ?_, ?_, ?_, ?_, ?_, p2, ?_⟩, rfl, rfl, rfl, rfl, rfl⟩
  · rw [LeCaR.insert, qPrepend, if_neg hnq', Res.bind_ok, hnd]
    simp only [qAppend, if_neg hno1, Res.bind_ok, hnodes]
  · have := h.rep.insert ⟨1, false, 0, 0⟩ r hn (rfl : (s.base.insertBase ⟨1, false, 0, 0⟩ r).tbl = _) (l := cont (⟨r.id, r.size % u32, 1⟩ :: l))
      (by show List.Perm _ (_ :: a .q); rw [h.aq]; exact List.Perm.refl _)
    exact this
  · intro o ho
    rcases List.mem_cons.1 ho with rfl | ho
    · show r.size % u32 + md < u32
      rw [hmod]; exact hsm
    · exact h.small o ho
  · intro x hx
    rcases List.mem_cons.1 hx with rfl | hx
    · exact ⟨_, (hlk r.id).trans (if_pos rfl), rfl⟩
    · obtain ⟨o, h1, h2⟩ := h.items x hx
      have hne : x.id ≠ r.id := fun e => hnq (e ▸ List.mem_map_of_mem hx)
      exact ⟨o, (hlk x.id).trans ((if_neg hne).trans h1), h2⟩
  · rw [put_ne _ (by decide)]; exact h.bad
  · show r.id :: s.q = r.id :: idsOf l
    rw [h.q]
  · rw [put_ne _ (by decide)]; exact h.gLru
  · rw [put_ne _ (by decide)]; exact h.gLfu
  · rw [put_ne _ (by decide)]; exact h.lruB
  · rw [put_ne _ (by decide)]; exact h.lfuB
  · show s.base.occ + (((r.size % u32 : Nat) : Int) + (s.base.objMd : Int)) = _
    rw [h.occ, h.mdz]; simp only [cont, List.map_cons, charge, hmod]; omega
  · show s.base.nObj + 1 = _
    rw [h.nObj]; simp
  · simp only [cont, List.map_cons, charge, hmod] at hroom ⊢; omega
  · intro _
    refine ⟨⟨_, List.mem_cons_self, rfl⟩, fun x hx => ?_⟩
    exact (p2.pos x hx).1

theorem kind_q {m : Meta} : kind m = .q ↔ m.ghost = false := by
  unfold kind
  cases m.ghost
  · simp
  · simp only [Bool.true_eq_false, if_false, iff_false]
    split
    · simp
    · split
      · simp
      · split <;> simp

/-- `find` without update -/
theorem Abs.findFalse (h : Abs cs md l a s) (r : Req) (K : Counter) : find K s r false = .ok (decide (r.id ∈ idsOf l), s) := by
  unfold find
  rw [findBase_false]
  cases hl : s.base.lookup r.id with
  | none =>
    have : r.id ∉ idsOf l := by
      intro hm
      obtain ⟨x, hx, e⟩ := List.mem_map.1 hm
      obtain ⟨o, ho, _⟩ := h.items x hx
      rw [e, hl] at ho; cases ho
    simp [this]
  | some o =>
    simp only [if_true]
    by_cases hm : r.id ∈ idsOf l
    · obtain ⟨x, hx, e⟩ := List.mem_map.1 hm
      obtain ⟨o', ho, _, _, _, hk, _⟩ := h.obj hx
      rw [e, hl] at ho; cases ho
      have : o.mt.ghost = false := kind_q.1 hk
      simp [hm, this]
    · simp [hm, h.lookup_none hm hl]

theorem Abs.findHit (h : Abs cs md l a s) (r : Req) {x : Item} (hx : x ∈ l) (hid : x.id = r.id) :
    ∃ s', find Counter.exact s r true = .ok (true, s') ∧ 
      Abs cs md ({ x with cnt := x.cnt + 1 } :: del x.id l) (put a .q (cont ({ x with cnt := x.cnt + 1 } :: del x.id l))) s' ∧
      s'.w = s.w ∧ s'.base.nReq = s.base.nReq ∧ s'.base.adm = s.base.adm ∧ s'.picks = s.picks ∧ s'.candVt = s.candVt := by
  obtain ⟨o, g1, g2, g3, g4, g5, g6, g7⟩ := h.obj hx
  rw [hid] at g1
  have hg : o.mt.ghost = false := kind_q.1 g5
  obtain ⟨s', k1, k2⟩ := Abs.dataHit (h.touch r) hx (o := Verif.touch r o) g2 g4
  refine ⟨s', ?_, k2⟩
  unfold find
  rw [findBase_hit g1]
  simp only [Bool.true_eq_false, if_false]
  rw [if_neg (by show ¬ o.mt.ghost = true; rw [hg]; decide)]
  rw [k1, Res.bind_ok]

theorem Abs.findMiss (h : Abs cs md l a s) (r : Req) (hn : r.id ∉ idsOf l) (K : Counter) :
    ∃ s' a', find K s r true = .ok (false, s') ∧ Abs cs md l a' s' ∧ s'.base.lookup r.id = none ∧ (∀ k, charge md (a' k) ≤ charge md (a k)) ∧
      s'.base.nReq = s.base.nReq ∧ s'.base.adm = s.base.adm ∧ s'.picks = s.picks ∧ s'.candVt = s.candVt ∧
      ((s.base.lookup r.id = none ∧ s' = s ∧ a' = a) ∨ ∃ o k, s.base.lookup r.id = some o ∧ kind o.mt = k ∧ a' = put a k (without r.id (a k)) ∧
        s'.w = (match k with
        | .gLru => R.updLru s.w (s.base.nReq - o.mt.vtime)
        | .gLfu => R.updLfu s.w (s.base.nReq - o.mt.vtime)
        | _ => s.w)) := by
  cases hl : s.base.lookup r.id with
  | none =>
    refine ⟨s, a, ?_, h, hl, fun _ => Nat.le_refl _, rfl, rfl, rfl, rfl, Or.inl ⟨rfl, rfl, rfl⟩⟩
    simp [find, findBase_miss hl]
  | some o =>
    have hg := h.lookup_none hn hl
    have hl' : (s.base.modify r.id (Verif.touch r)).lookup r.id = some (Verif.touch r o) := lookup_modify_self (fun _ => rfl) hl
    obtain ⟨s', k, k1, k2, k3, k4, k5, k6, k7, k8, k9, k10⟩ := Abs.ghostHit (h.touch r) (o := Verif.touch r o) hl' hg
    refine ⟨s', _, ?_, k5, ?_, fun j => ?_, k7, k8, k9, k10, Or.inr ⟨o, k, rfl, k1, rfl, k6⟩⟩
    · unfold find
      rw [findBase_hit hl]
      simp only [Bool.true_eq_false, if_false]
      rw [if_pos (show (Verif.touch r o).mt.ghost = true from hg), k4, Res.bind_ok]
    · refine k5.rep.lookup_none (fun j hj => ?_)
      obtain ⟨y, hy, e⟩ := List.mem_map.1 hj
      by_cases ej : j = k
      · subst ej
        rw [put_self] at hy
        simp only [without, List.mem_filter] at hy
        simp [e] at hy
      · rw [put_ne _ ej] at hy
        exact ej (h.rep.unique hy k3 e).1
    · by_cases ej : j = k
      · subst ej; rw [put_self]; exact charge_without_le _ _ _
      · exact Nat.le_of_eq (by rw [put_ne _ ej])

/-- `remove` of an object that is not a ghost -/
theorem Abs.remove (h : Abs cs md l a s) {x : Item} (hx : x ∈ l) :
    ∃ s', remove s x.id = .ok (true, s') ∧ Abs cs md (del x.id l) (put a .q (cont (del x.id l))) s' := by
  obtain ⟨o, g1, g2, g3, g4, g5, g6, g7⟩ := h.obj hx
  have hin : x.id ∈ s.q := by rw [h.q]; exact List.mem_map_of_mem hx
  obtain ⟨nodes', m, k1, k2, k3, _⟩ := takeFreq_spec (s := { s with q := s.q.erase x.id }) h.fr h.min hx
  refine ⟨{ s with q := s.q.erase x.id, nodes := nodes', minFreq := m, base := { s.base with occ := s.base.occ - (((o.size + s.base.objMd) % u32 : Nat) : Int), nObj := s.base.nObj - 1 }.del x.id }, ?_,
    ⟨?_, h.csz, h.mdz, ?_, ?_, put_self _ _ _, ?_, ?_, ?_, ?_, ?_, ?_, ?_, ?_, ?_, k2, k3⟩⟩
  · rw [LeCaR.remove, g1]
    simp only [qRemove, if_pos hin, Res.bind_ok, g4]
    rw [k1, Res.bind_ok]
    simp only [Base.removeObjBase, g1, Res.bind_ok]
  · have := h.rep.del g7 (rfl : (s.base.del x.id).tbl = _)
    rw [h.aq, ← cont_del] at this
    exact this.congr rfl
  · intro o' ho'; exact h.small o' (List.mem_of_mem_eraseP ho')
  · intro y hy
    obtain ⟨hy1, hy2⟩ := mem_del.1 hy
    obtain ⟨oy, e1, e2⟩ := h.items y hy1
    exact ⟨oy, (Lists.lookup_del (b := s.base) h.rep.nodup x.id y.id).trans ((if_neg hy2).trans e1), e2⟩
  · rw [put_ne _ (by decide)]; exact h.bad
  · show s.q.erase x.id = _
    rw [del_ids _ _ h.nodup, h.q]
  · rw [put_ne _ (by decide)]; exact h.gLru
  · rw [put_ne _ (by decide)]; exact h.gLfu
  · rw [put_ne _ (by decide)]; exact h.lruB
  · rw [put_ne _ (by decide)]; exact h.lfuB
  · show s.base.occ - _ = _
    rw [h.mdz, Nat.mod_eq_of_lt g6, h.occ, cont_charge h.nodup hx, g3]; omega
  · show s.base.nObj - 1 = _
    rw [h.nObj, del_length h.nodup hx]; omega
  · have := h.cap
    rw [cont_charge h.nodup hx] at this; omega

/-! ## All calls -/

/-- The ghosts in the hash table. -/
def ghosts (s : State R) : Ghosts := ⟨histLru s, histLfu s, fun x => ∃ o, s.base.lookup x.1 = some o ∧ o.size = x.2 ∧ o.mt.ghost = true ∧ o.mt.expert = -1⟩

theorem kind_both {m : Meta} : kind m = .both ↔ m.ghost = true ∧ m.expert = -1 := by
  unfold kind
  cases m.ghost
  · simp
  · simp only [Bool.true_eq_false, if_false, true_and]
    split
    · simp; omega
    · split
      · simp; omega
      · split <;> simp_all

theorem Abs.ghosts_eq (h : Abs cs md l a s) : ghosts s = ⟨a .gLru, a .gLfu, fun x => x ∈ a .both⟩ := by
  rw [ghosts, h.histLru_eq, h.histLfu_eq]
  congr 1
  funext x
  rw [h.rep.mem]
  simp only [kind_both]

theorem Retires.remembers {e : Expert} {x : ObjId × Nat} {a a' : Kind → Contents} (h : Retires cs md (code e) x a a') :
    Remembers cs md ⟨a .gLru, a .gLfu, fun x => x ∈ a .both⟩ x e ⟨a' .gLru, a' .gLfu, fun x => x ∈ a' .both⟩ := by
  cases e <;> simp only [Retires, code, Remembers] at h ⊢ <;> simp at h
  · obtain ⟨h1, h2, h3⟩ := h
    exact ⟨h1, h2, by rw [h3]⟩
  · obtain ⟨h1, h2, h3⟩ := h
    exact ⟨h1, h2, by rw [h3]⟩
  · obtain ⟨h1, h2, h3⟩ := h
    exact ⟨h2, h3, by funext y; rw [h1]; simp⟩

theorem Retires.old {e : Expert} {x : ObjId × Nat} {a' : Kind → Contents} (h : Retires cs md (code e) x a a') {k : Kind} (hk : k ≠ .q ∧ k ≠ .bad) {y : ObjId × Nat} (hy : y ∈ a' k) :
    y = x ∨ y ∈ a k := by
  have trim : ∀ {l c : Contents}, TrimmedTo md (cs / 2) (x :: l) c → y ∈ c → y = x ∨ y ∈ l := by
    rintro l c ⟨t, h1, _⟩ hy
    have : y ∈ x :: l := by rw [h1]; simp [hy]
    simpa using this
  rcases h with ⟨_, h1, h2, h3⟩ | ⟨_, h1, h2, h3⟩ | ⟨_, h1, h2, h3⟩
  · cases k
    · simp at hk
    · exact trim h1 hy
    · rw [h2] at hy; exact Or.inr hy
    · rw [h3] at hy; exact Or.inr hy
    · simp at hk
  · cases k
    · simp at hk
    · rw [h2] at hy; exact Or.inr hy
    · exact trim h1 hy
    · rw [h3] at hy; exact Or.inr hy
    · simp at hk
  · cases k
    · simp at hk
    · rw [h2] at hy; exact Or.inr hy
    · rw [h3] at hy; exact Or.inr hy
    · rw [h1] at hy; simpa using hy
    · simp at hk

/-- An eviction adds nothing to the hash table. -/
theorem Abs.evict_lookup {s' : State R} {a' : Kind → Contents} {v : Item} {e : Expert} (h : Abs cs md l a s) (hv : v ∈ l) (h' : Abs cs md (del v.id l) a' s') (hr : Retires cs md (code e) v.entry a a')
    {id : ObjId} (hn : s.base.lookup id = none) : s'.base.lookup id = none := by
  refine h'.rep.lookup_none (fun k hk => ?_)
  obtain ⟨y, hy, rfl⟩ := List.mem_map.1 hk
  have hvq : v.entry ∈ a .q := by rw [h.aq]; exact List.mem_map_of_mem hv
  by_cases e1 : k = .q
  · subst e1
    rw [h'.aq, cont_del] at hy
    simp only [without, List.mem_filter] at hy
    exact h.rep.notMem hn .q (List.mem_map_of_mem (by rw [h.aq]; exact hy.1))
  · by_cases e2 : k = .bad
    · subst e2; rw [h'.bad] at hy; simp at hy
    · rcases hr.old ⟨e1, e2⟩ hy with rfl | hy
      · exact h.rep.notMem hn .q (List.mem_map_of_mem hvq)
      · exact h.rep.notMem hn k (List.mem_map_of_mem hy)

theorem inv_init (cs md : Nat) (adm : Adm) (picks : List Nat) : Inv cs md (init R cs md adm picks) := by
  refine ⟨[], fun _ => [], ⟨⟨by simp [init, Base.init], ?_, by simp [Contents.ids]⟩, rfl, rfl, by simp [init, Base.init], by simp, rfl, rfl, rfl, rfl, rfl, rfl, rfl, rfl, rfl, by simp [cont, charge], ?_, by simp [MinOk]⟩,
    by simp [Bounded, charge], rfl⟩
  · intro i x; simp [init, Base.init, Base.lookup]
  · refine ⟨by simp [idsOf], fun f => ?_, fun f nd hf => ?_, by simp, ⟨{}, rfl⟩, Nat.le_refl _⟩
    · by_cases e : f = 1
      · subst e; rfl
      · simp [init, qOf, e, withCnt, idsOf]
    · by_cases e : f = 1
      · subst e
        simp only [init, if_true] at hf
        cases hf; rfl
      · simp [init, e] at hf

theorem must (h : Abs cs md l a s) (K : Counter) (r : Req) : (algo R K).mustEvict s r = decide (charge md (cont l) + r.size + md > cs) := by
  show decide (s.base.occ + r.size + s.base.objMd > (s.base.cacheSize : Int)) = _
  rw [h.mdz, h.csz, h.occ]
  congr 1
  rw [eq_iff_iff]; omega

theorem canInsert_eq (K : Counter) (s : State R) (r : Req) :
    (algo R K).canInsert s r = (admitsBase s.base r, { s with base := { s.base with adm := (s.base.adm.admit r).2 } }) := by
  show ((s.base.canInsertDefault r).1, { s with base := (s.base.canInsertDefault r).2 }) = _
  rw [canInsertDefault_eq]

/-- the calls considered: `get`, `find` and `evict` -/
abbrev calls : Perms := { rem := false, ins := false }

theorem contract : Medium (algo R Counter.exact) cached (Inv cs md) (fun s r => r.size + md ≤ cs ∧ s.base.lookup r.id = none) (fun s => (cached s).length) cs md calls (Adaptive.Requests cs md) where
  csz := fun ⟨_, _, h, _⟩ => h.csz
  mdz := fun ⟨_, _, h, _⟩ => h.mdz
  nodup := fun ⟨_, _, h, _⟩ => by rw [h.cached_eq, cont_ids]; exact h.nodup
  occ := fun {s} ⟨_, _, h, _⟩ => by show s.base.occ = _; rw [h.occ, h.cached_eq]
  nObj := fun {s} ⟨_, _, h, _⟩ => by show s.base.nObj = _; rw [h.nObj, h.cached_eq, cont, List.length_map]
  cap := fun {s} ⟨_, _, h, _⟩ => by
    show s.base.occ ≤ _
    rw [h.occ]; exact_mod_cast h.cap
  bump := fun {s} ⟨l, a, h, hb, hc⟩ => by
    have h2 := h.frame (s.base.nReq + 1) s.base.adm s.w s.picks s.candVt
    exact ⟨⟨l, a, h2, hb, hc⟩, h2.cached_eq.trans h.cached_eq.symm⟩
  findF := fun _ {s} r ⟨l, a, h, _⟩ => by
    show find _ s r false = _
    rw [h.findFalse, h.cached_eq, cont_ids]
  findHit := fun {s} r ⟨l, a, h, hb, hc⟩ hin _ => by
    rw [h.cached_eq, cont_ids] at hin
    obtain ⟨x, hx, hid⟩ := h.of_mem hin
    obtain ⟨s', k1, k2, k3, k4, k5, k6, k7⟩ := h.findHit r hx hid
    refine ⟨s', k1, ⟨_, _, k2, ⟨by rw [put_ne _ (by decide)]; exact hb.1, by rw [put_ne _ (by decide)]; exact hb.2⟩, k7.trans hc⟩, ?_⟩
    rw [k2.cached_eq, h.cached_eq]
    exact (cont_perm h.nodup hx).symm.subperm
  findMiss := fun {s} r ⟨l, a, h, hb, hc⟩ hn _ => by
    rw [h.cached_eq, cont_ids] at hn
    obtain ⟨s1, a1, k1, k2, k3, k4, k5, k6, k7, k8, _⟩ := h.findMiss r hn Counter.exact
    have hb' : Bounded cs md a1 := ⟨Nat.le_trans (k4 _) hb.1, Nat.le_trans (k4 _) hb.2⟩
    have hf := k2.frame s1.base.nReq (s1.base.adm.admit r).2 s1.w s1.picks s1.candVt
    refine ⟨s1, k1, ⟨l, a1, k2, hb', k8.trans hc⟩, by rw [k2.cached_eq, h.cached_eq], ?_⟩
    rw [canInsert_eq]
    refine ⟨⟨l, a1, hf, hb', k8.trans hc⟩, by rw [hf.cached_eq, h.cached_eq], ?_⟩
    intro ha _
    simp only [admitsBase, Bool.and_eq_true, decide_eq_true_eq] at ha
    have := ha.2
    rw [k2.mdz, k2.csz] at this
    exact ⟨this, k3⟩
  fuel := fun {s} ⟨l, a, h, _⟩ => by
    show (cached s).length ≤ s.q.length
    rw [h.cached_eq, h.q]; simp [cont, idsOf]
  evictLoop := fun {s} r ⟨l, a, h, hb, hc⟩ hok hr _ hme => by
    rw [must h, decide_eq_true_eq] at hme
    have hne : l ≠ [] := by rintro rfl; have := hr.1; simp only [cont, List.map_nil, charge] at hme; omega
    obtain ⟨s', a', v, e, e1, e2, e3, e4, e5, e6, e7, e8, e9⟩ := h.evict hne (by rw [hc]; omega)
    refine ⟨s', e1, ⟨_, _, e3, e5.bounded hb, e9.trans hc⟩, ⟨hr.1, h.evict_lookup e2 e3 e5 hr.2⟩, ?_, ?_⟩
    · rw [e3.cached_eq, h.cached_eq]
      exact (List.Sublist.subperm (List.sublist_cons_self _ _)).trans (cont_perm h.nodup e2).symm.subperm
    · rw [e3.cached_eq, h.cached_eq, cont, cont, List.length_map, List.length_map, del_length h.nodup e2]; omega
  insert := fun {s} r ⟨l, a, h, hb, hc⟩ hok hr hn hme => by
    rw [must h, decide_eq_false_iff_not] at hme
    obtain ⟨s', e1, e2, e3, e4, e5, e6, e7⟩ := h.insert r hr.2 (by omega) (hok hr.1)
    refine ⟨s', e1, ⟨_, _, e2, ⟨by rw [put_ne _ (by decide)]; exact hb.1, by rw [put_ne _ (by decide)]; exact hb.2⟩, e7.trans hc⟩, ?_⟩
    rw [e2.cached_eq, h.cached_eq]
    exact List.Subperm.refl _
  userInsert := fun h => by cases h
  remove := fun h => by cases h
  evict := fun _ {s} r ⟨l, a, h, hb, hc⟩ hne => by
    have hne : l ≠ [] := by rintro rfl; exact hne h.cached_eq
    obtain ⟨s', a', v, e, e1, e2, e3, e4, e5, e6, e7, e8, e9⟩ := h.evict hne (by rw [hc]; omega)
    refine ⟨s', e1, ⟨_, _, e3, e5.bounded hb, e9.trans hc⟩, ?_⟩
    rw [e3.cached_eq, h.cached_eq]
    exact (List.Sublist.subperm (List.sublist_cons_self _ _)).trans (cont_perm h.nodup e2).symm.subperm
  evictAtMostOne := fun {s s'} r ⟨l, a, h, hb, hc⟩ hok hr _ hme he => by
    rw [must h, decide_eq_true_eq] at hme
    have hne : l ≠ [] := by rintro rfl; have := hr.1; simp only [cont, List.map_nil, charge] at hme; omega
    obtain ⟨s'', a', v, e, e1, e2, e3, _⟩ := h.evict hne (by rw [hc]; omega)
    have : s'' = s' := by
      have he' : LeCaR.evict s = .ok s' := he
      rw [e1] at he'; cases he'; rfl
    subst this
    refine ⟨[v.entry], by simp, ?_⟩
    rw [e3.cached_eq, h.cached_eq]
    exact cont_perm h.nodup e2
  hitPerm := fun {s s'} r ⟨l, a, h, hb, hc⟩ hf => by
    have hf' : find Counter.exact s r true = .ok (true, s') := hf
    by_cases hin : r.id ∈ idsOf l
    · obtain ⟨x, hx, hid⟩ := h.of_mem hin
      obtain ⟨s'', k1, k2, _⟩ := h.findHit r hx hid
      rw [k1] at hf'; cases hf'
      rw [k2.cached_eq, h.cached_eq]
      exact (cont_perm h.nodup hx).symm
    · obtain ⟨s1, a1, k1, _⟩ := h.findMiss r hin Counter.exact
      rw [k1] at hf'; cases hf'

/-! ## What a `get` does -/

/-- the ghosts of an abstract state -/
def gOf (a : Kind → Contents) : Ghosts := ⟨a .gLru, a .gLfu, fun x => x ∈ a .both⟩

/-- The eviction loop of a miss. -/
theorem loop_spec (K : Counter) (r : Req) (hr : r.size + md ≤ cs) : ∀ (m : Nat) {s : State R} {l : List Item} {a : Kind → Contents}, Abs cs md l a s → Bounded cs md a → s.candVt = -1 → l.length ≤ m →
    s.base.lookup r.id = none →
    ∃ s' l' a' vs, (algo R K).evictLoop r m s = .ok s' ∧ Abs cs md l' a' s' ∧ Bounded cs md a' ∧ s'.candVt = -1 ∧
      EvictsAll cs md (R.lruWins s.w) ⟨l, s.picks, gOf a⟩ vs ⟨l', s'.picks, gOf a'⟩ ∧
      s'.base.lookup r.id = none ∧ charge md (cont l') + r.size + md ≤ cs ∧ s'.w = s.w ∧ s'.base.nReq = s.base.nReq ∧ s'.base.adm = s.base.adm := by
  have done : ∀ (m : Nat) {s : State R} {l : List Item} {a : Kind → Contents}, Abs cs md l a s → Bounded cs md a → s.candVt = -1 → ¬ (charge md (cont l) + r.size + md > cs) →
    s.base.lookup r.id = none →
    ∃ s' l' a' vs, (algo R K).evictLoop r m s = .ok s' ∧ Abs cs md l' a' s' ∧ Bounded cs md a' ∧ s'.candVt = -1 ∧
      EvictsAll cs md (R.lruWins s.w) ⟨l, s.picks, gOf a⟩ vs ⟨l', s'.picks, gOf a'⟩ ∧
      s'.base.lookup r.id = none ∧ charge md (cont l') + r.size + md ≤ cs ∧ s'.w = s.w ∧ s'.base.nReq = s.base.nReq ∧ s'.base.adm = s.base.adm := by
    intro m s l a h hb hc hm hn
    refine ⟨s, l, a, [], ?_, h, hb, hc, .none _, hn, by omega, rfl, rfl, rfl⟩
    cases m <;> simp [Algo.evictLoop, must h, hm]
  intro m
  induction m with
  | zero =>
    intro s l a h hb hc hlen hn
    apply done 0 h hb hc _ hn
    have : l = [] := List.length_eq_zero_iff.1 (by omega)
    rw [this]; simp only [cont, List.map_nil, charge]; omega
  | succ m ih =>
    intro s l a h hb hc hlen hn
    by_cases hm : charge md (cont l) + r.size + md > cs
    · have hne : l ≠ [] := by rintro rfl; simp only [cont, List.map_nil, charge] at hm; omega
      obtain ⟨s1, a1, v, e, e1, e2, e3, e4, e5, e6, e7, e8, e9⟩ := h.evict hne (by rw [hc]; omega)
      have hl := del_length h.nodup e2
      obtain ⟨s', l', a', vs, k1, k2, k3, k4, k5, k6, k7, k8, k9, k10⟩ := ih e3 (e5.bounded hb) (e9.trans hc) (by omega) (h.evict_lookup e2 e3 e5 hn)
      rw [e6] at k5
      refine ⟨s', l', a', v :: vs, ?_, k2, k3, k4, .one (b := ⟨del v.id l, s1.picks, gOf a1⟩) e4 e5.remembers k5, k6, k7, k8.trans e6, k9.trans e7, k10.trans e8⟩
      rw [Algo.evictLoop, must h, decide_eq_true hm, if_pos rfl]
      show (LeCaR.evict s >>= fun s' => (algo R K).evictLoop r m s') = _
      rw [e1, Res.bind_ok, k1]
    · exact done (m + 1) h hb hc hm hn

/-- when the object was evicted -/
def stamp (s : State R) (id : ObjId) : Int := ((s.base.lookup id).map (fun o => o.mt.vtime)).getD 0

/-- the weights after a miss -/
def newW (s : State R) (r : Req) : R.W :=
  if r.id ∈ (histLru s).ids then R.updLru s.w ((s.base.nReq : Int) + 1 - stamp s r.id)
  else if r.id ∈ (histLfu s).ids then R.updLfu s.w ((s.base.nReq : Int) + 1 - stamp s r.id)
  else s.w

theorem forget_none (h : Abs cs md l a s) {id : ObjId} (hn : s.base.lookup id = none) : forget id (gOf a) = gOf a := by
  have := fun k => h.rep.notMem hn k
  rw [forget, gOf]
  simp only [Ghosts.mk.injEq]
  refine ⟨filter_ids_eq (this _), filter_ids_eq (this _), ?_⟩
  funext x
  rw [eq_iff_iff, and_iff_left_iff_imp]
  rintro hx rfl
  exact this .both (List.mem_map_of_mem hx)

theorem forget_put (h : Abs cs md l a s) {id : ObjId} {n : Nat} {k : Kind} (hx : (id, n) ∈ a k) : forget id (gOf a) = gOf (put a k (without id (a k))) := by
  have other : ∀ j, j ≠ k → id ∉ (a j).ids := by
    intro j hj hm
    obtain ⟨y, hy, e⟩ := List.mem_map.1 hm
    exact hj (h.rep.unique hy hx e).1
  have lst : ∀ j, (a j).filter (fun x => x.1 ≠ id) = put a k (without id (a k)) j := by
    intro j
    by_cases e : j = k
    · subst e; rw [put_self]; rfl
    · rw [put_ne _ e]; exact filter_ids_eq (other j e)
  rw [forget, gOf, gOf]
  simp only [Ghosts.mk.injEq]
  refine ⟨lst _, lst _, ?_⟩
  funext x
  rw [← lst]
  simp

theorem Abs.get_hit (h : Abs cs md l a s) (hb : Bounded cs md a) (hc : s.candVt = -1) (r : Req) (hin : r.id ∈ idsOf l) :
    ∃ s' l' a', (algo R Counter.exact).get s r = .ok (true, s') ∧ Abs cs md l' a' s' ∧ Bounded cs md a' ∧ s'.candVt = -1 ∧ Hits l r.id l' ∧ gOf a' = gOf a ∧
      s'.w = s.w ∧ s'.picks = s.picks ∧ s'.base.nReq = s.base.nReq + 1 ∧ s'.base.adm = s.base.adm := by
  obtain ⟨x, hx, hid⟩ := h.of_mem hin
  have h2 := h.frame (s.base.nReq + 1) s.base.adm s.w s.picks s.candVt
  obtain ⟨s', k1, k2, k3, k4, k5, k6, k7⟩ := h2.findHit r hx hid
  refine ⟨s', _, _, Verif.get_hit (A := algo R Counter.exact) k1, k2, ⟨by rw [put_ne _ (by decide)]; exact hb.1, by rw [put_ne _ (by decide)]; exact hb.2⟩, k7.trans hc, ?_, ?_, k3, k6, k4, k5⟩
  · obtain ⟨c, d, rfl⟩ := List.append_of_mem hx
    exact ⟨c, x, d, rfl, hid, by rw [del_split h.nodup]⟩
  · simp only [gOf, put_ne _ (show Kind.gLru ≠ .q by decide), put_ne _ (show Kind.gLfu ≠ .q by decide), put_ne _ (show Kind.both ≠ .q by decide)]

theorem Abs.get_miss (h : Abs cs md l a s) (hb : Bounded cs md a) (hc : s.candVt = -1) (r : Req) (hok : Adaptive.Requests cs md r) (hn : r.id ∉ idsOf l) :
    ∃ s' l' a', (algo R Counter.exact).get s r = .ok (false, s') ∧ Abs cs md l' a' s' ∧ Bounded cs md a' ∧ s'.candVt = -1 ∧ s'.w = newW s r ∧ s'.base.nReq = s.base.nReq + 1 ∧
      s'.base.adm = (s.base.adm.admit r).2 ∧
      (admitsBase s.base r = false → l' = l ∧ gOf a' = forget r.id (gOf a) ∧ s'.picks = s.picks) ∧
      (admitsBase s.base r = true → ∃ vs l1, EvictsAll cs md (R.lruWins s'.w) ⟨l, s.picks, forget r.id (gOf a)⟩ vs ⟨l1, s'.picks, gOf a'⟩ ∧ l' = ⟨r.id, r.size, 1⟩ :: l1) := by
  have h2 := h.frame (s.base.nReq + 1) s.base.adm s.w s.picks s.candVt
  obtain ⟨s1, a1, k1, k2, k3, k4, k5, k6, k7, k8, k9⟩ := h2.findMiss r hn Counter.exact
  have hb' : Bounded cs md a1 := ⟨Nat.le_trans (k4 _) hb.1, Nat.le_trans (k4 _) hb.2⟩
  have hg : gOf a1 = forget r.id (gOf a) ∧ s1.w = newW s r := by
    rcases k9 with ⟨e1, e2, e3⟩ | ⟨o, k, e1, e2, e3, e4⟩
    · have e1 : s.base.lookup r.id = none := e1
      refine ⟨by rw [e3, forget_none h e1], ?_⟩
      rw [e2, newW, if_neg, if_neg]
      · rw [h.histLfu_eq]; exact h.rep.notMem e1 _
      · rw [h.histLru_eq]; exact h.rep.notMem e1 _
    · have e1 : s.base.lookup r.id = some o := e1
      have hx := h.rep.mem_of e1
      rw [e2] at hx
      refine ⟨by rw [e3, forget_put h hx], ?_⟩
      have hst : stamp s r.id = o.mt.vtime := by rw [stamp, e1]; rfl
      have other : ∀ j, j ≠ k → r.id ∉ (a j).ids := by
        intro j hj hm
        obtain ⟨y, hy, e⟩ := List.mem_map.1 hm
        exact hj (h.rep.unique hy hx e).1
      rw [e4, newW, hst, h.histLru_eq, h.histLfu_eq]
      cases k with
      | gLru => simp only; rw [if_pos (List.mem_map_of_mem (f := Prod.fst) hx)]; rfl
      | gLfu => simp only; rw [if_neg (other .gLru (by decide)), if_pos (List.mem_map_of_mem (f := Prod.fst) hx)]; rfl
      | q => simp only; rw [if_neg (other .gLru (by decide)), if_neg (other .gLfu (by decide))]
      | both => simp only; rw [if_neg (other .gLru (by decide)), if_neg (other .gLfu (by decide))]
      | bad => simp only; rw [if_neg (other .gLru (by decide)), if_neg (other .gLfu (by decide))]
  have hadm : admitsBase s1.base r = admitsBase s.base r := by
    have k6 : s1.base.adm = s.base.adm := k6
    simp only [admitsBase, k6, k2.mdz, k2.csz, h.mdz, h.csz]
  have hci := canInsert_eq (R := R) Counter.exact s1 r
  have hf := k2.frame s1.base.nReq (s1.base.adm.admit r).2 s1.w s1.picks s1.candVt
  have k6' : s1.base.adm = s.base.adm := k6
  cases ha : admitsBase s.base r with
  | false =>
    rw [hadm, ha] at hci
    refine ⟨_, l, a1, get_reject (A := algo R Counter.exact) k1 hci, hf, hb', k8.trans hc, hg.2, k5, by rw [← k6'], fun _ => ⟨rfl, hg.1, k7⟩, by simp⟩
  | true =>
    rw [hadm, ha] at hci
    have hcs : r.size + md ≤ cs := by
      simp only [admitsBase, Bool.and_eq_true, decide_eq_true_eq] at ha
      have := ha.2; rw [h.mdz, h.csz] at this; exact this
    obtain ⟨s3, l3, a3, vs, e1, e2, e3, e4, e5, e6, e7, e8, e9, e10⟩ := loop_spec Counter.exact r hcs ((algo R Counter.exact).fuel { s1 with base := { s1.base with adm := (s1.base.adm.admit r).2 } }) hf hb' (k8.trans hc)
      (by show l.length ≤ s1.q.length; rw [k2.q]; simp [idsOf]) k3
    obtain ⟨s4, f1, f2, f3, f4, f5, f6, f7⟩ := e2.insert r e6 e7 (hok hcs)
    have hmod : r.size % u32 = r.size := Nat.mod_eq_of_lt (by have := hok hcs; omega)
    rw [hmod] at f2
    have hw : s4.w = s1.w := f3.trans e8
    refine ⟨s4, _, _, get_accept (A := algo R Counter.exact) k1 hci e1 f1, f2, ⟨by rw [put_ne _ (by decide)]; exact e3.1, by rw [put_ne _ (by decide)]; exact e3.2⟩, f7.trans e4, hw.trans hg.2,
      f4.trans (e9.trans k5), f5.trans (e10.trans (by rw [← k6'])), by simp, fun _ => ⟨vs, l3, ?_, rfl⟩⟩
    rw [hw, f6, ← hg.1]
    have k7 : s1.picks = s.picks := k7
    have e5 : EvictsAll cs md (R.lruWins s1.w) ⟨l, s1.picks, gOf a1⟩ vs ⟨l3, s3.picks, gOf a3⟩ := e5
    rw [k7] at e5
    have : gOf (put a3 Kind.q (cont (⟨r.id, r.size, 1⟩ :: l3))) = gOf a3 := by
      simp only [gOf, put_ne _ (show Kind.gLru ≠ .q by decide), put_ne _ (show Kind.gLfu ≠ .q by decide), put_ne _ (show Kind.both ≠ .q by decide)]
    rw [this]; exact e5

end
end Verif.LeCaR
