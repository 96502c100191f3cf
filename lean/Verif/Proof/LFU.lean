import Verif.Proof.View
import Verif.Proof.Queue
import Verif.Proof.Sim
import Verif.Algo.LFU
/-!
# LFU meets the single-`Base` obligations and simulates the textbook LFU
-/

namespace Verif.LFU
open Verif Spec

/-! ## Lists sorted into classes -/

/-- concatenation of the classes 0, 1, …, N-1 -/
def classes (N : Nat) (g : Nat → List Item) : List Item := (List.range N).flatMap g

theorem classes_succ (N : Nat) (g : Nat → List Item) : classes (N + 1) g = classes N g ++ g N := by
  simp [classes, List.range_succ]

theorem classes_congr {N : Nat} {g g' : Nat → List Item} (h : ∀ f, f < N → g f = g' f) : classes N g = classes N g' := by
  induction N with
  | zero => rfl
  | succ N ih => rw [classes_succ, classes_succ, ih (fun f hf => h f (by omega)), h N (by omega)]

theorem mem_classes {N : Nat} {g : Nat → List Item} {x : Item} : x ∈ classes N g ↔ ∃ f, f < N ∧ x ∈ g f := by
  simp [classes]

theorem classes_extend {N M : Nat} {g : Nat → List Item} (hNM : N ≤ M) (h : ∀ f, N ≤ f → g f = []) :
    classes M g = classes N g := by
  induction M with
  | zero => have : N = 0 := by omega
            subst this; rfl
  | succ M ih =>
    by_cases e : N = M + 1
    · subst e; rfl
    · rw [classes_succ, ih (by omega), h M (by omega), List.append_nil]

theorem classes_filter (p : Item → Bool) (N : Nat) (g : Nat → List Item) :
    (classes N g).filter p = classes N (fun f => (g f).filter p) := by
  induction N with
  | zero => rfl
  | succ N ih => rw [classes_succ, classes_succ, List.filter_append, ih]

theorem classes_place {N : Nat} {g : Nat → List Item} (hg : ∀ f, ∀ x ∈ g f, x.cnt = f) (x : Item) (hx : x.cnt < N) :
    placeByCount (classes N g) x = classes N (fun f => if f = x.cnt then g f ++ [x] else g f) := by
  induction N with
  | zero => omega
  | succ N ih =>
    rw [classes_succ, classes_succ]
    by_cases e : x.cnt = N
    · have h1 : (classes N g ++ g N).filter (fun y => decide (y.cnt ≤ x.cnt)) = classes N g ++ g N := by
        rw [List.filter_eq_self]
        intro y hy
        rcases List.mem_append.1 hy with hy | hy
        · obtain ⟨f, hf, hy⟩ := mem_classes.1 hy
          have := hg f y hy; simp; omega
        · have := hg N y hy; simp; omega
      have h2 : (classes N g ++ g N).filter (fun y => decide (x.cnt < y.cnt)) = [] := by
        rw [List.filter_eq_nil_iff]
        intro y hy
        rcases List.mem_append.1 hy with hy | hy
        · obtain ⟨f, hf, hy⟩ := mem_classes.1 hy
          have := hg f y hy; simp; omega
        · have := hg N y hy; simp; omega
      unfold placeByCount
      rw [h1, h2, classes_congr (g' := g) (fun f hf => if_neg (by omega)), if_pos e.symm, List.append_assoc]
    · have h1 : (g N).filter (fun y => decide (y.cnt ≤ x.cnt)) = [] := by
        rw [List.filter_eq_nil_iff]
        intro y hy
        have := hg N y hy; simp; omega
      have h2 : (g N).filter (fun y => decide (x.cnt < y.cnt)) = g N := by
        rw [List.filter_eq_self]
        intro y hy
        have := hg N y hy; simp; omega
      rw [← ih (by omega)]
      unfold placeByCount
      rw [List.filter_append, List.filter_append, h1, h2, if_neg (Ne.symm e)]
      simp

theorem classes_first {N m : Nat} {g : Nat → List Item} {x : Item} {t : List Item} (hm : m < N)
    (h0 : ∀ f, f < m → g f = []) (h : g m = x :: t) :
    classes N g = x :: classes N (fun f => if f = m then t else g f) := by
  induction N with
  | zero => omega
  | succ N ih =>
    rw [classes_succ, classes_succ]
    by_cases e : m = N
    · subst e
      have z : ∀ k, k ≤ m → ∀ g' : Nat → List Item, (∀ f, f < m → g' f = []) → classes k g' = [] := by
        intro k hk g' hg'
        induction k with
        | zero => rfl
        | succ k ihk => rw [classes_succ, ihk (by omega), hg' k (by omega)]; rfl
      rw [z m (Nat.le_refl _) g h0, z m (Nat.le_refl _) _ (fun f hf => by rw [if_neg (by omega)]; exact h0 f hf), h]
      simp
    · rw [ih (by omega), if_neg (Ne.symm e)]; rfl

/-! ## The invariant -/

/-- the list stored under a key -/
def qOf (m : Nat → Option Node) (f : Nat) : List ObjId :=
  match m f with
  | some nd => nd.q
  | none => []

theorem qOf_some {m : Nat → Option Node} {f : Nat} {nd : Node} (h : m f = some nd) : qOf m f = nd.q := by simp [qOf, h]

theorem qOf_set (m : Nat → Option Node) (f g : Nat) (x : Node) :
    qOf (setNode m f (some x)) g = if g = f then x.q else qOf m g := by
  unfold qOf setNode; by_cases h : g = f <;> simp [h]

/-- the cached objects by increasing count, and in each count class in queue order -/
def view (s : State) : List Item := classes (s.maxFreq + 1) (fun f => viewOf cntItem s.base (qOf s.nodes f))

structure CInv (cs md : Nat) (s : State) : Prop where
  base : BInv cs md s.base
  one : ∃ nd, s.nodes 1 = some nd
  cnt : ∀ f nd, s.nodes f = some nd → nd.n = (nd.q.length : Nat)
  nd : ∀ f, (qOf s.nodes f).Nodup
  mem : ∀ f id, id ∈ qOf s.nodes f ↔ ∃ o, s.base.lookup id = some o ∧ o.mt = f
  pos : ∀ o ∈ s.base.tbl, 1 ≤ o.mt ∧ o.mt ≤ s.maxFreq
  maxPos : 1 ≤ s.maxFreq

/-- `m` is the smallest count of a cached object -/
def IsMin (s : State) (m : Nat) : Prop := m ≠ 0 ∧ (∀ o ∈ s.base.tbl, m ≤ o.mt) ∧ qOf s.nodes m ≠ []

structure Inv (cs md : Nat) (s : State) : Prop extends CInv cs md s where
  min : s.minFreq ≠ 0 → s.base.tbl ≠ [] → IsMin s s.minFreq

theorem CInv.node {cs md : Nat} {s : State} (h : CInv cs md s) {id : ObjId} {o : Obj Nat}
    (ho : s.base.lookup id = some o) : ∃ nd, s.nodes o.mt = some nd ∧ id ∈ nd.q ∧ nd.q.Nodup ∧ nd.n = (nd.q.length : Nat) := by
  have hm := (h.mem o.mt id).2 ⟨o, ho, rfl⟩
  cases hn : s.nodes o.mt with
  | none => simp [qOf, hn] at hm
  | some nd =>
    refine ⟨nd, rfl, by rw [← qOf_some hn]; exact hm, by rw [← qOf_some hn]; exact h.nd _, h.cnt _ _ hn⟩

theorem CInv.notMem {cs md : Nat} {s : State} (h : CInv cs md s) {id : ObjId} (ho : s.base.lookup id = none) (f : Nat) :
    id ∉ qOf s.nodes f := by
  rw [h.mem]; simp [ho]

theorem CInv.bigEmpty {cs md : Nat} {s : State} (h : CInv cs md s) {f : Nat} (hf : s.maxFreq < f) : qOf s.nodes f = [] := by
  rw [List.eq_nil_iff_forall_not_mem]
  intro id hid
  obtain ⟨o, ho, he⟩ := (h.mem f id).1 hid
  have := (h.pos o (lookup_some_mem ho).1).2
  omega

theorem updateMin_spec {cs md : Nat} {s : State} (h : CInv cs md s)
    (hb : ∀ o ∈ s.base.tbl, s.minFreq < o.mt) :
    ∃ m, updateMin s = { s with minFreq := m } ∧ (s.base.tbl ≠ [] → IsMin s m) := by
  unfold updateMin
  generalize hp : (fun f => match s.nodes f with
    | some nd => decide (nd.n > 0)
    | none => false) = p
  have hpt : ∀ f, p f = true ↔ qOf s.nodes f ≠ [] := by
    intro f
    subst hp
    simp only [qOf]
    cases hn : s.nodes f with
    | none => simp
    | some nd =>
      simp only [decide_eq_true_eq]
      rw [h.cnt f nd hn]
      cases nd.q <;> simp
  have hex : ∀ o ∈ s.base.tbl, p o.mt = true := by
    intro o ho
    rw [hpt]
    have := (h.mem o.mt o.id).2 ⟨o, lookup_of_mem h.base.inv.nodup ho, rfl⟩
    exact List.ne_nil_of_mem this
  cases hf : (List.range' (s.minFreq + 1) (s.maxFreq - s.minFreq)).find? p with
  | none =>
    refine ⟨s.minFreq, rfl, fun hne => ?_⟩
    obtain ⟨o, ho⟩ := List.exists_mem_of_ne_nil _ hne
    rw [List.find?_eq_none] at hf
    have := h.pos o ho
    have h2 := hb o ho
    exact absurd (hex o ho) (hf o.mt (by rw [List.mem_range'_1]; omega))
  | some f =>
    refine ⟨f, rfl, fun hne => ⟨?_, ?_, ?_⟩⟩
    · have := List.mem_of_find?_eq_some hf
      rw [List.mem_range'_1] at this; omega
    · intro o ho
      rw [List.find?_range'_eq_some] at hf
      by_contra hlt
      have h3 := hf.2.2 o.mt (by have := hb o ho; omega) (by omega)
      rw [hex o ho] at h3; simp at h3
    · exact (hpt f).1 (List.find?_some hf)

/-- The invariant does not depend on `minFreq` except through `min`. -/
theorem CInv.setMin {cs md : Nat} {s : State} (h : CInv cs md s) (m : Nat) : CInv cs md { s with minFreq := m } :=
  ⟨h.base, h.one, h.cnt, h.nd, h.mem, h.pos, h.maxPos⟩

theorem isMin_setMin {s : State} {m k : Nat} : IsMin { s with minFreq := k } m ↔ IsMin s m := Iff.rfl

/-! ## Functions -/

theorem find_false (s : State) (r : Req) : find s r false = .ok ((s.base.lookup r.id).isSome, s) := by
  unfold find
  rw [findBase_false]
  cases h : s.base.lookup r.id <;> simp

theorem find_miss {s : State} {r : Req} (ho : s.base.lookup r.id = none) : find s r true = .ok (false, s) := by
  simp [find, findBase_miss ho]

/-- the object update of a hit -/
def inc (o : Obj Nat) : Obj Nat := { o with mt := o.mt + 1 }

theorem mem_erase' {l : List ObjId} {a b : ObjId} (hn : l.Nodup) : a ∈ l.erase b ↔ a ≠ b ∧ a ∈ l := hn.mem_erase_iff

theorem find_hit {cs md : Nat} {s : State} {r : Req} {o : Obj Nat} (h : Inv cs md s)
    (ho : s.base.lookup r.id = some o) :
    ∃ s', find s r true = .ok (true, s') ∧ Inv cs md s' ∧ s'.base = (s.base.modify r.id (touch r)).modify r.id inc ∧
      s'.maxFreq = max s.maxFreq (o.mt + 1) ∧
      ∀ f, qOf s'.nodes f = if f = o.mt + 1 then qOf s.nodes f ++ [r.id] else
        if f = o.mt then (qOf s.nodes f).erase r.id else qOf s.nodes f := by
  obtain ⟨old, hold, hmem, hnd, hn⟩ := h.node ho
  set b' := (s.base.modify r.id (touch r)).modify r.id inc with hb'
  have hlk : ∀ id, b'.lookup id = if id = r.id then some (inc (touch r o)) else s.base.lookup id := by
    intro id
    by_cases e : id = r.id
    · subst e
      rw [if_pos rfl]
      exact lookup_modify_self (f := inc) (fun _ => rfl) (lookup_modify_self (f := touch r) (fun _ => rfl) ho)
    · rw [if_neg e, hb', lookup_modify_ne (f := inc) (fun _ => rfl) e, lookup_modify_ne (f := touch r) (fun _ => rfl) e]
  have hbi : BInv cs md b' := (h.base.modify r.id (touch r) (fun _ => rfl) (fun _ => rfl)).modify r.id inc (fun _ => rfl) (fun _ => rfl)
  have hnew : r.id ∉ qOf s.nodes (o.mt + 1) := by
    rw [h.mem]; rintro ⟨o', ho', e⟩
    rw [ho] at ho'; cases ho'; omega
  set new : Node := (s.nodes (o.mt + 1)).getD {} with hnewdef
  have hnq : new.q = qOf s.nodes (o.mt + 1) := by
    rw [hnewdef]; unfold qOf; cases s.nodes (o.mt + 1) <;> rfl
  have hnn : new.n = (new.q.length : Nat) := by
    rw [hnewdef]
    cases hx : s.nodes (o.mt + 1) with
    | none => rfl
    | some nd => exact h.cnt _ _ hx
  -- the state after moving the object
  set s1 : State := { s with
      base := b'
      maxFreq := if s.maxFreq < o.mt + 1 then o.mt + 1 else s.maxFreq
      nodes := setNode (setNode s.nodes o.mt (some { n := old.n - 1, q := old.q.erase r.id })) (o.mt + 1)
        (some { n := new.n + 1, q := new.q ++ [r.id] }) } with hs1
  have hq1 : ∀ f, qOf s1.nodes f = if f = o.mt + 1 then qOf s.nodes f ++ [r.id] else
        if f = o.mt then (qOf s.nodes f).erase r.id else qOf s.nodes f := by
    intro f
    show qOf (setNode (setNode s.nodes o.mt _) (o.mt + 1) _) f = _
    rw [qOf_set, qOf_set]
    by_cases e1 : f = o.mt + 1
    · simp only [e1, if_true, hnq]
    · by_cases e2 : f = o.mt
      · rw [if_neg e1, if_neg e1, if_pos e2, if_pos e2, e2, qOf_some hold]
      · simp only [e1, e2, if_false]
  have hmax : s1.maxFreq = max s.maxFreq (o.mt + 1) := by
    show (if s.maxFreq < o.mt + 1 then o.mt + 1 else s.maxFreq) = _
    split <;> omega
  have hmemb : ∀ x ∈ s1.base.tbl, ∃ o' , s.base.lookup x.id = some o' ∧ (x.id = r.id → x.mt = o.mt + 1) ∧ (x.id ≠ r.id → x = o') := by
    intro x hx
    have hl := lookup_of_mem hbi.inv.nodup hx
    rw [hlk] at hl
    by_cases e : x.id = r.id
    · rw [if_pos e] at hl; cases hl
      exact ⟨o, by rw [e]; exact ho, fun _ => rfl, fun h => absurd e h⟩
    · rw [if_neg e] at hl
      exact ⟨x, hl, fun h => absurd h e, fun _ => rfl⟩
  have hc1 : CInv cs md s1 := by
    refine ⟨hbi, ?_, ?_, ?_, ?_, ?_, by rw [hmax]; omega⟩
    · show ∃ nd, setNode (setNode s.nodes o.mt _) (o.mt + 1) _ 1 = some nd
      unfold setNode
      obtain ⟨nd, h1⟩ := h.one
      by_cases e1 : 1 = o.mt + 1
      · rw [if_pos e1]; exact ⟨_, rfl⟩
      · by_cases e2 : 1 = o.mt
        · rw [if_neg e1, if_pos e2]; exact ⟨_, rfl⟩
        · rw [if_neg e1, if_neg e2]; exact ⟨nd, h1⟩
    · intro f nd hf
      have hf' : setNode (setNode s.nodes o.mt (some { n := old.n - 1, q := old.q.erase r.id })) (o.mt + 1)
        (some { n := new.n + 1, q := new.q ++ [r.id] }) f = some nd := hf
      unfold setNode at hf'
      by_cases e1 : f = o.mt + 1
      · rw [if_pos e1] at hf'; cases hf'
        simp [hnn]
      · rw [if_neg e1] at hf'
        by_cases e2 : f = o.mt
        · rw [if_pos e2] at hf'; cases hf'
          have hl := List.length_erase_of_mem hmem
          have : 0 < old.q.length := List.length_pos_of_mem hmem
          simp only [hn, hl]; omega
        · rw [if_neg e2] at hf'; exact h.cnt f nd hf'
    · intro f
      rw [hq1]
      split
      · rename_i e1
        rw [List.nodup_append]
        refine ⟨h.nd _, by simp, ?_⟩
        intro a ha b hb
        simp only [List.mem_singleton] at hb
        subst hb
        rintro rfl
        rw [e1] at ha
        exact hnew ha
      · split
        · exact (h.nd _).erase _
        · exact h.nd _
    · intro f id
      show id ∈ qOf s1.nodes f ↔ ∃ o', b'.lookup id = some o' ∧ o'.mt = f
      rw [hq1, hlk]
      by_cases e : id = r.id
      · subst e
        simp only [if_true]
        by_cases e1 : f = o.mt + 1
        · simp [e1, inc, touch]
        · rw [if_neg e1]
          have : ¬ ∃ o', some (inc (touch r o)) = some o' ∧ o'.mt = f := by
            rintro ⟨o', ho', rfl⟩; cases ho'; exact e1 rfl
          simp only [this, iff_false]
          split
          · rw [mem_erase' (h.nd _)]; simp
          · rename_i e2
            rw [h.mem]; rintro ⟨o', ho', e3⟩
            rw [ho] at ho'; cases ho'; exact e2 e3.symm
      · rw [if_neg e]
        split
        · simp only [List.mem_append, List.mem_singleton, e, or_false]; exact h.mem f id
        · split
          · rw [mem_erase' (h.nd _)]; simp only [e, ne_eq, not_false_eq_true, true_and]; exact h.mem f id
          · exact h.mem f id
    · intro x hx
      obtain ⟨o', ho', h1, h2⟩ := hmemb x hx
      rw [hmax]
      by_cases e : x.id = r.id
      · rw [h1 e]; omega
      · rw [h2 e]
        have := h.pos o' (lookup_some_mem ho').1
        omega
  have hprom : find s r true = promote { s with base := b' } r.id o.mt >>= fun s' => .ok (true, s') := by
    simp only [find, findBase_hit ho, if_true]; rfl
  have hstep : promote { s with base := b' } r.id o.mt =
      if old.n - 1 = 0 then
        .ok (if o.mt ≠ 1 then { (if s1.minFreq = o.mt then updateMin s1 else s1) with
            nodes := setNode (if s1.minFreq = o.mt then updateMin s1 else s1).nodes o.mt none }
          else (if s1.minFreq = o.mt then updateMin s1 else s1))
      else .ok s1 := by
    unfold promote
    rw [show ({ s with base := b' } : State).nodes = s.nodes from rfl, hold]
    simp only [qRemove, hmem, if_true, Res.bind_ok]
    rw [show (s.nodes (o.mt + 1)).getD {} = new from rfl]
    have : r.id ∉ new.q := by rw [hnq]; exact hnew
    simp only [qAppend, this, if_false, Res.bind_ok]
    rfl
  rw [hprom, hstep]
  have hne1 : s1.base.tbl ≠ [] := by
    intro e
    have : b'.lookup r.id = none := by unfold Base.lookup; rw [show b'.tbl = [] from e]; rfl
    rw [hlk] at this; simp at this
  have holdlow : s.minFreq ≠ 0 → IsMin s s.minFreq := fun h0 => h.min h0 (by
    intro e; unfold Base.lookup at ho; rw [e] at ho; simp at ho)
  by_cases hz : old.n - 1 = 0
  · rw [if_pos hz]
    -- the old class is empty now
    have hqe : qOf s1.nodes o.mt = [] := by
      rw [hq1, if_neg (by omega), if_pos rfl, qOf_some hold]
      have hl := List.length_erase_of_mem hmem
      rw [hn] at hz
      apply List.length_eq_zero_iff.1
      omega
    -- state with the right minimum
    obtain ⟨m, hm, hmin⟩ : ∃ m, (if s1.minFreq = o.mt then updateMin s1 else s1) = { s1 with minFreq := m } ∧
        (m ≠ 0 → IsMin s1 m) := by
      by_cases e : s1.minFreq = o.mt
      · rw [if_pos e]
        have h0 : s.minFreq ≠ 0 := by
          show s1.minFreq ≠ 0
          rw [e]; have := (h.pos o (lookup_some_mem ho).1).1; omega
        obtain ⟨m, k1, k2⟩ := updateMin_spec hc1 (by
          intro x hx
          obtain ⟨o', ho', h1, h2⟩ := hmemb x hx
          by_cases e2 : x.id = r.id
          · rw [h1 e2, e]; omega
          · have h3 := (holdlow h0).2.1 o' (lookup_some_mem ho').1
            rw [h2 e2]
            have h4 : o'.mt ≠ o.mt := by
              intro e3
              have : o'.id ∈ qOf s1.nodes o.mt := (hc1.mem o.mt o'.id).2 ⟨x, lookup_of_mem hbi.inv.nodup hx |> fun hh => by
                rw [h2 e2] at hh; rw [h2 e2]; exact hh, by rw [h2 e2]; exact e3⟩
              rw [hqe] at this; simp at this
            have h5 : s1.minFreq = s.minFreq := rfl
            omega)
        exact ⟨m, k1, fun _ => k2 hne1⟩
      · rw [if_neg e]
        refine ⟨s1.minFreq, rfl, fun h0 => ?_⟩
        obtain ⟨g1, g2, g3⟩ := holdlow h0
        have hle := g2 o (lookup_some_mem ho).1
        refine ⟨g1, ?_, ?_⟩
        · intro x hx
          obtain ⟨o', ho', h1, h2⟩ := hmemb x hx
          by_cases e2 : x.id = r.id
          · rw [h1 e2]; show s.minFreq ≤ _; omega
          · rw [h2 e2]; exact g2 o' (lookup_some_mem ho').1
        · rw [hq1]
          show (if s.minFreq = _ then _ else _) ≠ []
          split
          · simp
          · exact g3
    rw [hm]
    by_cases h1 : o.mt = 1
    · rw [if_neg (by simp [h1]), Res.bind_ok]
      exact ⟨_, rfl, ⟨hc1.setMin m, fun h0 _ => hmin h0⟩, rfl, hmax, hq1⟩
    · simp only [h1, ne_eq, not_false_eq_true, if_true, Res.bind_ok]
      have hq2 : ∀ f, qOf (setNode s1.nodes o.mt none) f = qOf s1.nodes f := by
        intro f
        by_cases e : f = o.mt
        · subst e; rw [hqe]; simp [qOf, setNode]
        · simp [qOf, setNode, e]
      refine ⟨_, rfl, ⟨⟨hbi, ?_, ?_, ?_, ?_, hc1.pos, hc1.maxPos⟩, ?_⟩, rfl, hmax, fun f => by simp only [hq2]; exact hq1 f⟩
      · obtain ⟨nd, hh⟩ := hc1.one
        refine ⟨nd, ?_⟩
        simp only [setNode]
        rw [if_neg (fun e => h1 e.symm)]; exact hh
      · intro f nd hf
        simp only [setNode] at hf
        by_cases e : f = o.mt
        · rw [if_pos e] at hf; cases hf
        · rw [if_neg e] at hf; exact hc1.cnt f nd hf
      · intro f; simp only [hq2]; exact hc1.nd f
      · intro f id; simp only [hq2]; exact hc1.mem f id
      · intro h0 _
        obtain ⟨g1, g2, g3⟩ := hmin h0
        exact ⟨g1, g2, by simp only [hq2]; exact g3⟩
  · rw [if_neg hz, Res.bind_ok]
    refine ⟨s1, rfl, ⟨hc1, fun h0 _ => ?_⟩, rfl, hmax, hq1⟩
    obtain ⟨g1, g2, g3⟩ := holdlow h0
    have hle := g2 o (lookup_some_mem ho).1
    refine ⟨g1, ?_, ?_⟩
    · intro x hx
      obtain ⟨o', ho', h1, h2⟩ := hmemb x hx
      by_cases e2 : x.id = r.id
      · rw [h1 e2]; show s.minFreq ≤ _; omega
      · rw [h2 e2]; exact g2 o' (lookup_some_mem ho').1
    · rw [hq1]
      show (if s.minFreq = _ then _ else _) ≠ []
      split
      · simp
      · split
        · rename_i e2
          rw [e2, qOf_some hold]
          intro e3
          have hl := List.length_erase_of_mem hmem
          rw [e3] at hl
          rw [hn] at hz
          have : 0 < old.q.length := List.length_pos_of_mem hmem
          simp at hl; omega
        · exact g3

/-- Taking an object out of its class (shared by evict and remove). -/
theorem take_out {cs md : Nat} {s : State} {id : ObjId} {o : Obj Nat} {nd : Node} {b' : Base Nat} (h : CInv cs md s)
    (ho : s.base.lookup id = some o) (hnd : s.nodes o.mt = some nd) (hb' : BInv cs md b')
    (ht : b'.tbl = s.base.tbl.eraseP (fun x => x.id == id)) (hperm : s.base.tbl.Perm (o :: b'.tbl)) (m : Nat) :
    let s1 : State := { s with base := b', nodes := setNode s.nodes o.mt (some { n := nd.n - 1, q := nd.q.erase id }), minFreq := m }
    CInv cs md s1 ∧ (∀ f, qOf s1.nodes f = if f = o.mt then (qOf s.nodes f).erase id else qOf s.nodes f) := by
  intro s1
  obtain ⟨hmem0, hid⟩ := lookup_some_mem ho
  have hq1 : ∀ f, qOf s1.nodes f = if f = o.mt then (qOf s.nodes f).erase id else qOf s.nodes f := by
    intro f
    show qOf (setNode s.nodes o.mt _) f = _
    rw [qOf_set]
    by_cases e : f = o.mt
    · simp only [e, if_true, qOf_some hnd]
    · simp only [e, if_false]
  obtain ⟨nd', hnd', hmem, hnod, hcn⟩ := h.node ho
  rw [hnd] at hnd'; cases hnd'
  have hnot : b'.lookup id = none := by
    rw [lookup_none_iff]
    intro x hx e
    have := (hperm.map (·.id)).nodup_iff.1 h.base.inv.nodup
    simp only [List.map_cons, List.nodup_cons] at this
    exact this.1 (List.mem_map.2 ⟨x, hx, by rw [e, hid]⟩)
  refine ⟨⟨hb', ?_, ?_, ?_, ?_, ?_, h.maxPos⟩, hq1⟩
  · obtain ⟨n1, h1⟩ := h.one
    show ∃ nd, setNode s.nodes o.mt _ 1 = some nd
    unfold setNode
    split
    · exact ⟨_, rfl⟩
    · exact ⟨n1, h1⟩
  · intro f x hf
    have hf' : setNode s.nodes o.mt (some { n := nd.n - 1, q := nd.q.erase id }) f = some x := hf
    unfold setNode at hf'
    split at hf'
    · cases hf'
      have hl := List.length_erase_of_mem hmem
      have : 0 < nd.q.length := List.length_pos_of_mem hmem
      simp only [hcn, hl]; omega
    · exact h.cnt f x hf'
  · intro f
    rw [hq1]
    split
    · exact (h.nd f).erase _
    · exact h.nd f
  · intro f i
    show i ∈ qOf s1.nodes f ↔ ∃ o, b'.lookup i = some o ∧ o.mt = f
    rw [hq1]
    by_cases e : i = id
    · subst e
      rw [hnot]
      simp only [reduceCtorEq, false_and, exists_false, iff_false]
      split
      · rw [mem_erase' (h.nd _)]; simp
      · rename_i e2
        rw [h.mem]; rintro ⟨o', ho', e3⟩
        rw [ho] at ho'; cases ho'; exact e2 e3.symm
    · rw [lookup_eraseP_ne ht e]
      split
      · rw [mem_erase' (h.nd _)]; simp only [e, ne_eq, not_false_eq_true, true_and]; exact h.mem f i
      · exact h.mem f i
  · intro x hx
    exact h.pos x (hperm.symm.subset (by simp [show x ∈ b'.tbl from hx]))

theorem fixMin_spec {cs md : Nat} {s : State} (h : Inv cs md s) (hne : s.base.tbl ≠ []) :
    ∃ m, fixMin s = { s with minFreq := m } ∧ IsMin s m := by
  unfold fixMin
  by_cases h0 : s.minFreq = 0
  · rw [if_pos h0]
    obtain ⟨m, h1, h2⟩ := updateMin_spec h.toCInv (fun o ho => by rw [h0]; exact (h.pos o ho).1)
    exact ⟨m, h1, h2 hne⟩
  · rw [if_neg h0]
    exact ⟨s.minFreq, rfl, h.min h0 hne⟩

theorem evict_spec {cs md : Nat} {s : State} (h : Inv cs md s) (hne : s.base.tbl ≠ []) :
    ∃ s' o, evict s = .ok s' ∧ Inv cs md s' ∧ s.base.lookup o.id = some o ∧
      s.base.cached.Perm ((o.id, o.size) :: s'.base.cached) ∧
      (∀ x ∈ s.base.tbl, o.mt ≤ x.mt) ∧ (qOf s.nodes o.mt).head? = some o.id ∧
      s'.base.tbl = s.base.tbl.eraseP (fun x => x.id == o.id) ∧ s'.base.adm = s.base.adm ∧ s'.maxFreq = s.maxFreq ∧
      (∀ f, qOf s'.nodes f = if f = o.mt then (qOf s.nodes f).erase o.id else qOf s.nodes f) ∧
      toEvict s = some o.id := by
  obtain ⟨m, hf, h0, hlow, hq⟩ := fixMin_spec h hne
  cases hnd : s.nodes m with
  | none => simp [qOf, hnd] at hq
  | some nd =>
    rw [qOf_some hnd] at hq
    cases hndq : nd.q with
    | nil => exact absurd hndq hq
    | cons id t =>
      have hidq : id ∈ qOf s.nodes m := by rw [qOf_some hnd, hndq]; simp
      obtain ⟨o, ho, hom⟩ := (h.mem m id).1 hidq
      have hid := (lookup_some_mem ho).2
      obtain ⟨b', h1, h2, h3, h4, h5, h6, h7⟩ := h.base.remove ho
      have hto := take_out h.toCInv ho (by rw [hom]; exact hnd) h2 h3 h4 (if nd.n - 1 = 0 then 0 else m)
      simp only at hto
      obtain ⟨hc, hqs⟩ := hto
      refine ⟨{ s with base := b', nodes := setNode s.nodes o.mt (some { n := nd.n - 1, q := nd.q.erase id }), minFreq := if nd.n - 1 = 0 then 0 else m },
        o, ?_, ⟨hc, ?_⟩, by rw [hid]; exact ho, h5, by rw [hom]; exact hlow, ?_, by rw [hid]; exact h3, h6, rfl, ?_, ?_⟩
      · unfold evict
        simp only [hf, hnd, hndq]
        simp only [qRemove, List.mem_cons, true_or, if_true, Res.bind_ok, Base.evictBase, h1]
        simp only [hom]
      · intro hm0 hne'
        simp only [ne_eq, ite_eq_left_iff, not_forall, exists_prop] at hm0
        refine ⟨by simp only [hm0.1, if_false]; exact h0, ?_, ?_⟩
        · simp only [hm0.1, if_false]
          intro x hx
          exact hlow x (h4.symm.subset (by simp [hx]))
        · rw [hqs]
          simp only [hm0.1, if_false, hom, if_true, qOf_some hnd, hndq, List.erase_cons_head]
          intro e
          apply hm0.1
          rw [h.cnt m nd hnd, hndq, e]; rfl
      · rw [hom, qOf_some hnd, hndq, hid]; rfl
      · intro f; rw [hqs, hid]
      · simp [toEvict, hf, hnd, hndq, hid]

theorem insert_spec {cs md : Nat} {s : State} (h : Inv cs md s) (r : Req) (hn : s.base.lookup r.id = none)
    (hroom : s.base.occ + r.size + md ≤ cs) (hsz : SizeOk md r) :
    ∃ s', insert s r = .ok s' ∧ Inv cs md s' ∧ s'.base = s.base.insertBase 1 r ∧ s'.maxFreq = s.maxFreq ∧
      ∀ f, qOf s'.nodes f = if f = 1 then qOf s.nodes f ++ [r.id] else qOf s.nodes f := by
  obtain ⟨nd, hnd⟩ := h.one
  have hnq : r.id ∉ nd.q := by rw [← qOf_some hnd]; exact h.toCInv.notMem hn 1
  have hb := h.base.insert 1 r (lookup_none_iff'.1 hn) hroom hsz
  set s' : State := { s with base := s.base.insertBase 1 r, minFreq := 1, nodes := setNode s.nodes 1 (some { n := nd.n + 1, q := nd.q ++ [r.id] }) } with hs'
  have hq : ∀ f, qOf s'.nodes f = if f = 1 then qOf s.nodes f ++ [r.id] else qOf s.nodes f := by
    intro f
    show qOf (setNode s.nodes 1 _) f = _
    rw [qOf_set]
    by_cases e : f = 1
    · simp only [e, if_true, qOf_some hnd]
    · simp only [e, if_false]
  refine ⟨s', by simp [insert, hnd, qAppend, hnq, hs'], ⟨⟨hb, ?_, ?_, ?_, ?_, ?_, h.maxPos⟩, ?_⟩, rfl, rfl, hq⟩
  · exact ⟨_, by simp [hs', setNode]; rfl⟩
  · intro f x hf
    have hf' : setNode s.nodes 1 (some { n := nd.n + 1, q := nd.q ++ [r.id] }) f = some x := hf
    unfold setNode at hf'
    split at hf'
    · cases hf'; simp [h.cnt 1 nd hnd]
    · exact h.cnt f x hf'
  · intro f
    rw [hq]
    split
    · rw [List.nodup_append]
      refine ⟨h.nd _, by simp, ?_⟩
      intro a ha b hb'
      simp only [List.mem_singleton] at hb'
      subst hb'
      rintro rfl
      exact h.toCInv.notMem hn f ha
    · exact h.nd f
  · intro f id
    show id ∈ qOf s'.nodes f ↔ ∃ o, (s.base.insertBase 1 r).lookup id = some o ∧ o.mt = f
    rw [hq, lookup_insertBase]
    by_cases e : id = r.id
    · subst e
      simp only [if_true, Option.some.injEq, exists_eq_left', Obj.ofReq]
      by_cases e1 : f = 1
      · simp [e1]
      · rw [if_neg e1]
        simp only [h.toCInv.notMem hn f, false_iff]
        exact fun e => e1 e.symm
    · rw [if_neg e]
      split
      · simp only [List.mem_append, List.mem_singleton, e, or_false]; exact h.mem f id
      · exact h.mem f id
  · intro x hx
    have hx' : x ∈ Obj.ofReq 1 r :: s.base.tbl := hx
    rcases List.mem_cons.1 hx' with rfl | hx'
    · refine ⟨Nat.le_refl 1, ?_⟩
      exact h.maxPos
    · exact h.pos x hx'
  · intro _ _
    refine ⟨by simp [hs'], ?_, ?_⟩
    · intro x hx
      have hx' : x ∈ Obj.ofReq 1 r :: s.base.tbl := hx
      rcases List.mem_cons.1 hx' with rfl | hx'
      · exact Nat.le_refl 1
      · exact (h.pos x hx').1
    · rw [hq]; simp [hs']

theorem remove_miss {s : State} {id : ObjId} (h : s.base.lookup id = none) : remove s id = .ok (false, s) := by
  simp [remove, h]

theorem remove_spec {cs md : Nat} {s : State} {id : ObjId} {o : Obj Nat} (h : Inv cs md s)
    (ho : s.base.lookup id = some o) :
    ∃ s', remove s id = .ok (true, s') ∧ Inv cs md s' ∧ s.base.cached.Perm ((o.id, o.size) :: s'.base.cached) ∧
      s'.base.tbl = s.base.tbl.eraseP (fun x => x.id == id) ∧ s'.base.adm = s.base.adm ∧ s'.maxFreq = s.maxFreq ∧
      ∀ f, qOf s'.nodes f = if f = o.mt then (qOf s.nodes f).erase id else qOf s.nodes f := by
  obtain ⟨nd, hnd, hmem, hnod, hcn⟩ := h.node ho
  obtain ⟨b', h1, h2, h3, h4, h5, h6, h7⟩ := h.base.remove ho
  obtain ⟨hm0, hid⟩ := lookup_some_mem ho
  have hto := take_out h.toCInv ho hnd h2 h3 h4 s.minFreq
  simp only at hto
  obtain ⟨hc, hqs⟩ := hto
  generalize hs1 : ({ s with base := b', nodes := setNode s.nodes o.mt (some { n := nd.n - 1, q := nd.q.erase id }), minFreq := s.minFreq } : State) = s1 at hc hqs
  replace hqs : ∀ f, qOf s1.nodes f = if f = o.mt then (qOf s.nodes f).erase id else qOf s.nodes f := by
    rw [← hs1]; exact hqs
  have e1 : s1.base = b' := by rw [← hs1]
  have e2 : s1.minFreq = s.minFreq := by rw [← hs1]
  have e3 : s1.maxFreq = s.maxFreq := by rw [← hs1]
  have hr : remove s id = .ok (true, if o.mt = s1.minFreq ∧ nd.n - 1 = 0 then updateMin s1 else s1) := by
    simp only [remove, ho, hnd, qRemove, hmem, if_true, Res.bind_ok, h1]
    rw [← hs1]
  have hne : s.base.tbl ≠ [] := List.ne_nil_of_mem hm0
  rw [hr]
  by_cases hcase : o.mt = s1.minFreq ∧ nd.n - 1 = 0
  · rw [if_pos hcase]
    have h0 : s.minFreq ≠ 0 := by
      rw [← e2, ← hcase.1]; have := (h.pos o hm0).1; omega
    have hmin := h.min h0 hne
    have hqe : qOf s1.nodes o.mt = [] := by
      rw [hqs, if_pos rfl, qOf_some hnd]
      have hl := List.length_erase_of_mem hmem
      have := hcase.2
      rw [hcn] at this
      apply List.length_eq_zero_iff.1
      omega
    obtain ⟨m, k1, k2⟩ := updateMin_spec hc (by
      intro x hx
      rw [e2]
      have h8 := hmin.2.1 x (h4.symm.subset (by rw [e1] at hx; simp [hx]))
      have h9 : x.mt ≠ o.mt := by
        intro e
        have : x.id ∈ qOf s1.nodes o.mt := (hc.mem o.mt x.id).2 ⟨x, lookup_of_mem hc.base.inv.nodup hx, e⟩
        rw [hqe] at this; simp at this
      have h10 := hcase.1
      omega)
    rw [k1]
    refine ⟨_, rfl, ⟨hc.setMin m, fun _ hne' => k2 hne'⟩, by simp only [e1]; exact h5, by simp only [e1]; exact h3,
      by simp only [e1]; exact h6, e3, hqs⟩
  · rw [if_neg hcase]
    refine ⟨s1, rfl, ⟨hc, ?_⟩, by rw [e1]; exact h5, by rw [e1]; exact h3, by rw [e1]; exact h6, e3, hqs⟩
    intro h0 _
    rw [e2] at h0 ⊢
    obtain ⟨g1, g2, g3⟩ := h.min h0 hne
    refine ⟨g1, fun x hx => g2 x (h4.symm.subset (by rw [e1] at hx; simp [hx])), ?_⟩
    rw [hqs]
    split
    · rename_i e
      rw [e, qOf_some hnd]
      intro e4
      apply hcase
      refine ⟨by rw [e2, e], ?_⟩
      have hl := List.length_erase_of_mem hmem
      rw [e4] at hl
      have : 0 < nd.q.length := List.length_pos_of_mem hmem
      rw [hcn]; simp at hl; omega
    · exact g3

theorem spec (cs md : Nat) : SBSpec algo (fun s => s.base) (fun s b => { s with base := b }) (Inv cs md) cs md where
  base_set := fun _ _ => rfl
  occ := fun _ => rfl
  nObj := fun _ => rfl
  csz := fun _ => rfl
  mdz := fun _ => rfl
  bumpEq := fun _ => rfl
  canEq := fun _ _ => rfl
  fuel := fun _ => Nat.le_refl _
  inv := fun h => h.base
  frame := fun n a h => ⟨⟨⟨⟨h.base.inv.nodup, h.base.inv.occ_eq, h.base.inv.nObj_eq, h.base.inv.cap, h.base.inv.small⟩, h.base.cs, h.base.md⟩,
    h.one, h.cnt, h.nd, h.mem, h.pos, h.maxPos⟩, h.min⟩
  findF := fun r _ => find_false _ r
  findHit := fun {s} r o h ho => by
    obtain ⟨s', h1, h2, h3, _⟩ := find_hit h ho
    refine ⟨s', h1, h2, ?_⟩
    simp only [h3]
    rw [Base.cached_modify _ _ inc (fun _ => rfl) (fun _ => rfl), Base.cached_modify _ _ (touch r) (fun _ => rfl) (fun _ => rfl)]
  findMiss := fun r _ ho => find_miss ho
  evict := fun {s} r h hne _ => by
    obtain ⟨s', o, h1, h2, _, h4, _⟩ := evict_spec h hne
    exact ⟨s', _, h1, h2, h4⟩
  insert := fun {s} r h hn hroom hok => by
    obtain ⟨s', h1, h2, h3, _⟩ := insert_spec h r hn hroom hok
    refine ⟨s', h1, h2, by simp only [h3]; rw [cached_insertBase]⟩
  removeMiss := fun _ {_} id _ hn => remove_miss hn
  removeHit := fun _ {s} id o h ho => by
    obtain ⟨s', h1, h2, h3, _⟩ := remove_spec h ho
    exact ⟨s', h1, h2, h3⟩

/-! ## The view -/

theorem CInv.allPerm {cs md : Nat} {s : State} (h : CInv cs md s) :
    ((List.range (s.maxFreq + 1)).flatMap (qOf s.nodes)).Perm (s.base.tbl.map (·.id)) := by
  rw [List.perm_ext_iff_of_nodup ?_ h.base.inv.nodup]
  · intro id
    simp only [List.mem_flatMap, List.mem_range, List.mem_map]
    constructor
    · rintro ⟨f, _, hid⟩
      obtain ⟨o, ho, _⟩ := (h.mem f id).1 hid
      exact ⟨o, (lookup_some_mem ho).1, (lookup_some_mem ho).2⟩
    · rintro ⟨o, ho, rfl⟩
      exact ⟨o.mt, by have := (h.pos o ho).2; omega, (h.mem _ _).2 ⟨o, lookup_of_mem h.base.inv.nodup ho, rfl⟩⟩
  · rw [List.nodup_flatMap]
    refine ⟨fun f _ => h.nd f, ?_⟩
    refine List.Pairwise.imp ?_ (List.nodup_range (n := s.maxFreq + 1))
    intro a b hab id ha hb
    obtain ⟨o, ho, e⟩ := (h.mem a id).1 ha
    obtain ⟨o', ho', e'⟩ := (h.mem b id).1 hb
    rw [ho] at ho'; cases ho'
    exact hab (e.symm.trans e')

theorem view_eq (s : State) : view s = viewOf cntItem s.base ((List.range (s.maxFreq + 1)).flatMap (qOf s.nodes)) := by
  unfold view classes viewOf
  rw [List.filterMap_flatMap]

theorem CInv.viewPerm {cs md : Nat} {s : State} (h : CInv cs md s) : (view s).Perm (s.base.tbl.map cntItem) := by
  rw [view_eq]
  exact viewOf_perm_tbl h.base.inv.nodup h.allPerm

/-- every item of class f has count f -/
theorem CInv.classCnt {cs md : Nat} {s : State} (h : CInv cs md s) (f : Nat) :
    ∀ x ∈ viewOf cntItem s.base (qOf s.nodes f), x.cnt = f := by
  intro x hx
  unfold viewOf at hx
  obtain ⟨id, hid, hx⟩ := List.mem_filterMap.1 hx
  obtain ⟨o, ho, e⟩ := (h.mem f id).1 hid
  rw [ho] at hx
  simp only [Option.map_some, Option.some.injEq] at hx
  rw [← hx]; exact e

theorem viewOf_erase_filter {b : Base Nat} {q : List ObjId} (hn : q.Nodup) (id : ObjId) :
    viewOf cntItem b (q.erase id) = (viewOf cntItem b q).filter (fun x => decide (x.id ≠ id)) := by
  rw [hn.erase_eq_filter]
  apply viewOf_filter
  intro o _
  by_cases e : o.id = id <;> simp [cntItem, e]

theorem viewOf_filter_notMem {cs md : Nat} {s : State} (h : CInv cs md s) {id : ObjId} {f : Nat} (hq : id ∉ qOf s.nodes f) :
    (viewOf cntItem s.base (qOf s.nodes f)).filter (fun x => decide (x.id ≠ id)) = viewOf cntItem s.base (qOf s.nodes f) := by
  rw [← viewOf_erase_filter (h.nd f), List.erase_of_not_mem hq]

/-- taking object `id` out of class `m` filters it out of the view -/
theorem view_out {cs md : Nat} {s s' : State} {id : ObjId} {o : Obj Nat} (h : CInv cs md s)
    (ho : s.base.lookup id = some o) (ht : s'.base.tbl = s.base.tbl.eraseP (fun x => x.id == id)) (hmax : s'.maxFreq = s.maxFreq)
    (hq : ∀ f, qOf s'.nodes f = if f = o.mt then (qOf s.nodes f).erase id else qOf s.nodes f) :
    view s' = (view s).filter (fun x => decide (x.id ≠ id)) := by
  unfold view
  rw [classes_filter, hmax]
  apply classes_congr
  intro f _
  rw [hq]
  split
  · rw [← viewOf_erase_filter (h.nd f)]
    exact viewOf_erase ht (by rw [mem_erase' (h.nd f)]; simp)
  · rename_i e
    have hni : id ∉ qOf s.nodes f := by
      rw [h.mem]; rintro ⟨o', ho', e'⟩
      rw [ho] at ho'; cases ho'; exact e e'.symm
    rw [viewOf_filter_notMem h hni]
    exact viewOf_erase ht hni

theorem view_insert {cs md : Nat} {s s' : State} {r : Req} (h : CInv cs md s)
    (hn : s.base.lookup r.id = none) (hb : s'.base = s.base.insertBase 1 r) (hmax : s'.maxFreq = s.maxFreq)
    (hq : ∀ f, qOf s'.nodes f = if f = 1 then qOf s.nodes f ++ [r.id] else qOf s.nodes f) :
    view s' = placeByCount (view s) ⟨r.id, r.size % u32, 1⟩ := by
  unfold view
  rw [classes_place h.classCnt _ (by have := h.maxPos; simp only; omega), hmax]
  apply classes_congr
  intro f _
  rw [hq, hb]
  simp only
  split
  · rw [viewOf_append, viewOf_insert _ _ (h.notMem hn f)]
    congr 1
    rw [viewOf_cons (o := Obj.ofReq 1 r) (by rw [lookup_insertBase, if_pos rfl])]
    rfl
  · rw [viewOf_insert _ _ (h.notMem hn f)]

theorem view_find {cs md : Nat} {s : State} {id : ObjId} {o : Obj Nat} (h : CInv cs md s)
    (ho : s.base.lookup id = some o) : (view s).find? (fun x => decide (x.id = id)) = some (cntItem o) := by
  obtain ⟨hm, hid⟩ := lookup_some_mem ho
  cases hf : (view s).find? (fun x => decide (x.id = id)) with
  | none =>
    rw [List.find?_eq_none] at hf
    have := hf (cntItem o) (h.viewPerm.symm.subset (List.mem_map.2 ⟨o, hm, rfl⟩))
    simp [cntItem, hid] at this
  | some x =>
    have h1 := List.mem_of_find?_eq_some hf
    have h2 := List.find?_some hf
    obtain ⟨o', ho', rfl⟩ := List.mem_map.1 (h.viewPerm.subset h1)
    have h2 : o'.id = id := of_decide_eq_true h2
    have := lookup_of_mem h.base.inv.nodup ho'
    rw [h2, ho] at this; cases this; rfl

theorem view_hit {cs md : Nat} {s s' : State} {r : Req} {o : Obj Nat} (h : CInv cs md s)
    (ho : s.base.lookup r.id = some o) (hb : s'.base = (s.base.modify r.id (touch r)).modify r.id inc)
    (hmax : s'.maxFreq = max s.maxFreq (o.mt + 1))
    (hq : ∀ f, qOf s'.nodes f = if f = o.mt + 1 then qOf s.nodes f ++ [r.id] else
        if f = o.mt then (qOf s.nodes f).erase r.id else qOf s.nodes f) :
    view s' = lfu.onHit (view s) r := by
  have hid := (lookup_some_mem ho).2
  simp only [lfu]
  rw [view_find h ho]
  simp only
  have hg : ∀ f, ∀ x ∈ (viewOf cntItem s.base (qOf s.nodes f)).filter (fun x => decide (x.id ≠ r.id)), x.cnt = f :=
    fun f x hx => h.classCnt f x (List.mem_filter.1 hx).1
  have hfil : (view s).filter (fun x => decide (x.id ≠ r.id)) =
      classes (max s.maxFreq (o.mt + 1) + 1) (fun f => (viewOf cntItem s.base (qOf s.nodes f)).filter (fun x => decide (x.id ≠ r.id))) := by
    unfold view
    rw [classes_filter]
    symm
    apply classes_extend (by omega)
    intro f hf
    rw [h.bigEmpty (by omega)]; rfl
  rw [hfil, classes_place hg _ (by simp only [cntItem]; omega)]
  unfold view
  rw [hmax]
  apply classes_congr
  intro f _
  have hlk : ∀ id, id ≠ r.id → s'.base.lookup id = s.base.lookup id := by
    intro id e
    rw [hb, lookup_modify_ne (f := inc) (fun _ => rfl) e, lookup_modify_ne (f := touch r) (fun _ => rfl) e]
  have hlk1 : s'.base.lookup r.id = some (inc (touch r o)) := by
    rw [hb]
    exact lookup_modify_self (f := inc) (fun _ => rfl) (lookup_modify_self (f := touch r) (fun _ => rfl) ho)
  have hsame : ∀ q : List ObjId, r.id ∉ q → viewOf cntItem s'.base q = viewOf cntItem s.base q := by
    intro q hq'
    apply viewOf_congr
    intro id hi
    rw [hlk id (by rintro rfl; exact hq' hi)]
  have hnot : ∀ f, f ≠ o.mt → r.id ∉ qOf s.nodes f := by
    intro f hf
    rw [h.mem]; rintro ⟨o', ho', e'⟩
    rw [ho] at ho'; cases ho'; exact hf e'.symm
  rw [hq]
  show _ = if f = o.mt + 1 then _ else _
  by_cases e1 : f = o.mt + 1
  · rw [if_pos e1, if_pos e1, viewOf_append, hsame _ (hnot f (by omega))]
    have := viewOf_filter_notMem h (hnot f (by omega))
    rw [show (fun x : Item => decide (x.id ≠ r.id)) = fun x => decide (x.id ≠ r.id) from rfl, this]
    congr 1
    rw [viewOf_cons hlk1]; rfl
  · rw [if_neg e1, if_neg e1]
    by_cases e2 : f = o.mt
    · rw [if_pos e2, ← viewOf_erase_filter (h.nd f)]
      exact hsame _ (by rw [mem_erase' (h.nd f)]; simp)
    · rw [if_neg e2, hsame _ (hnot f e2)]
      exact (viewOf_filter_notMem h (hnot f e2)).symm

theorem nodup_filter_head {x : Item} {t : List Item} (h : ((x :: t).map (·.id)).Nodup) :
    (x :: t).filter (fun y => decide (y.id ≠ x.id)) = t := by
  rw [List.map_cons, List.nodup_cons] at h
  rw [List.filter_cons_of_neg (by simp), List.filter_eq_self]
  intro y hy
  simp only [ne_eq, decide_not, Bool.not_eq_eq_eq_not, Bool.not_true, decide_eq_false_iff_not]
  intro e
  exact h.1 (List.mem_map.2 ⟨y, hy, e⟩)

theorem view_head {cs md : Nat} {s : State} {o : Obj Nat} (h : CInv cs md s) (ho : s.base.lookup o.id = some o)
    (hlow : ∀ x ∈ s.base.tbl, o.mt ≤ x.mt) (hh : (qOf s.nodes o.mt).head? = some o.id) :
    ∃ t, view s = cntItem o :: t := by
  cases hq : qOf s.nodes o.mt with
  | nil => rw [hq] at hh; simp at hh
  | cons a t =>
    rw [hq] at hh; simp at hh; subst hh
    have := classes_first (N := s.maxFreq + 1) (m := o.mt) (g := fun f => viewOf cntItem s.base (qOf s.nodes f))
      (x := cntItem o) (t := viewOf cntItem s.base t) (by have := (h.pos o (lookup_some_mem ho).1).2; omega)
      (by
        intro f hf
        have : qOf s.nodes f = [] := by
          rw [List.eq_nil_iff_forall_not_mem]
          intro id hid
          obtain ⟨o', ho', e⟩ := (h.mem f id).1 hid
          have := hlow o' (lookup_some_mem ho').1
          omega
        simp only [this]; rfl)
      (by simp only [hq]; exact viewOf_cons ho)
    exact ⟨_, this⟩

theorem sim (cs md : Nat) : Sim algo (fun s => s.base) (fun s b => { s with base := b }) (Inv cs md) cs md lfu view where
  contents := fun {s} h => by
    have := h.toCInv.viewPerm.map Item.entry
    simp only [List.map_map] at this
    exact this
  frame := fun _ _ _ => rfl
  findHit := fun {s s'} r o h ho hf => by
    obtain ⟨s'', h1, _, h3, h4, h5⟩ := find_hit h ho
    have hf' : find s r true = .ok (true, s') := hf
    rw [h1] at hf'; cases hf'
    exact ⟨view_hit h.toCInv ho h3 h4 h5, by rw [h3]; rfl⟩
  evict := fun {s s'} r h hne he => by
    obtain ⟨s'', o, h1, _, h3, _, h5, h6, h7, h8, h9, h10, _⟩ := evict_spec h hne
    have he' : evict s = .ok s' := he
    rw [h1] at he'; cases he'
    refine ⟨?_, h8⟩
    obtain ⟨t, ht⟩ := view_head h.toCInv h3 h5 h6
    rw [view_out h.toCInv h3 h7 h9 h10]
    have hnd : ((view s).map (·.id)).Nodup := by
      have := h.toCInv.viewPerm.map (·.id)
      rw [this.nodup_iff, List.map_map]
      exact h.base.inv.nodup
    rw [ht] at hnd ⊢
    exact nodup_filter_head hnd
  insert := fun {s s'} r h hn hroom hok hi => by
    obtain ⟨s'', h1, _, h3, h4, h5⟩ := insert_spec h r hn hroom hok
    have hi' : insert s r = .ok s' := hi
    rw [h1] at hi'; cases hi'
    exact ⟨view_insert h.toCInv hn h3 h4 h5, by rw [h3]; rfl⟩
  remove := fun {s s'} id o h ho hr => by
    obtain ⟨s'', h1, _, _, h4, h5, h6, h7⟩ := remove_spec h ho
    have hr' : remove s id = .ok (true, s') := hr
    rw [h1] at hr'; cases hr'
    exact ⟨view_out h.toCInv ho h4 h6 h7, h5⟩

/-- what a rejected request must leave alone -/
def core (s : State) : Quiet Nat × (Nat → Option Node) × Nat × Nat := (s.base.quiet, s.nodes, s.minFreq, s.maxFreq)

theorem strong (cs md : Nat) : SBStrong algo (fun s => s.base) (Inv cs md) cs md core :=
  (spec cs md).strong core (fun _ _ _ => rfl)

theorem inv_init (cs md : Nat) (adm : Adm) : Inv cs md (init cs md adm) := by
  refine ⟨⟨⟨baseInv_init cs md adm, rfl, rfl⟩, ⟨{}, rfl⟩, ?_, ?_, ?_, ?_, Nat.le_refl 1⟩, ?_⟩
  · intro f nd h
    simp only [init] at h
    split at h <;> cases h
    rfl
  · intro f
    have : qOf (init cs md adm).nodes f = [] := by
      unfold qOf init; simp only; split <;> rename_i h <;> [(split at h <;> cases h; rfl); rfl]
    rw [this]; exact List.nodup_nil
  · intro f id
    have : qOf (init cs md adm).nodes f = [] := by
      unfold qOf init; simp only; split <;> rename_i h <;> [(split at h <;> cases h; rfl); rfl]
    rw [this]
    simp [init, Base.init, Base.lookup]
  · simp [init, Base.init]
  · simp [init, Base.init]

theorem toEvict_spec {cs md : Nat} {s : State} (h : Inv cs md s) (hne : s.base.tbl ≠ []) :
    ∃ id n s', toEvict s = some id ∧ evict s = .ok s' ∧ s.base.cached.Perm ((id, n) :: s'.base.cached) := by
  obtain ⟨s', o, h1, _, _, h4, _, _, _, _, _, _, h11⟩ := evict_spec h hne
  exact ⟨o.id, o.size, s', h11, h1, h4⟩

/-- `get_min_freq_node` may write `min_freq` when it is called by `to_evict`: the state stays valid, and the order is the same. -/
theorem fixMin_keeps {cs md : Nat} {s : State} (h : Inv cs md s) : Inv cs md (fixMin s) ∧ view (fixMin s) = view s := by
  by_cases hne : s.base.tbl = []
  · have : ∃ m, fixMin s = { s with minFreq := m } := by
      unfold fixMin updateMin
      split
      · split
        · exact ⟨_, rfl⟩
        · exact ⟨s.minFreq, rfl⟩
      · exact ⟨s.minFreq, rfl⟩
    obtain ⟨m, e⟩ := this
    rw [e]
    exact ⟨⟨h.toCInv.setMin m, fun _ hn => absurd hne hn⟩, rfl⟩
  · obtain ⟨m, e, hm⟩ := fixMin_spec h hne
    rw [e]
    exact ⟨⟨h.toCInv.setMin m, fun _ _ => hm⟩, rfl⟩

end Verif.LFU
