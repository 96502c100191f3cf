import Verif.Spec.HashTableV1
import Mathlib.Data.List.Perm.Basic
import Mathlib.Data.List.Nodup
import Mathlib.Data.List.Perm.Lattice
import Mathlib.Tactic.ByContra
/-!
# Proofs about the first chained hash table
-/

namespace Verif.HashTableV1
open Verif Verif.Spec.BakedTable

theorem hashsize_eq (n : Nat) : hashsize n = 2 ^ n := by simp [hashsize, Nat.shiftLeft_eq]

theorem hashsize_pos (n : Nat) : 0 < hashsize n := by rw [hashsize_eq]; exact Nat.two_pow_pos n

theorem mask_eq (x n : Nat) : x &&& hashmask n = x % hashsize n := by
  rw [hashmask, hashsize_eq]; exact Nat.and_two_pow_sub_one_eq_mod x n

theorem mask_lt (x n : Nat) : x &&& hashmask n < hashsize n := by
  rw [mask_eq]; exact Nat.mod_lt _ (hashsize_pos n)

/-! ## The objects, their addresses and the pointers -/

def Follow (es : List (Addr × Cell)) (ptrs : List (Option Addr)) (ws : List (Option ObjId)) : Prop :=
  List.Forall₂ (fun p w => ∀ id, w = some id → ∃ e ∈ es, p = some e.1 ∧ e.2.id = id) ptrs ws

structure Core (es : List (Addr × Cell)) (next : Nat) (ptrs : List (Option Addr)) (st : St) : Prop where
  nodup : (es.map Prod.fst).Nodup
  nodes : ∀ a, Addr.node a ∈ es.map Prod.fst → a < next
  cells : (es.map (fun e => (e.2.id, e.2.size))).Perm st.objs
  sizes : ∀ e ∈ es, e.2.size ≠ 0
  follow : Follow es ptrs st.follow

theorem Core.perm {es es' : List (Addr × Cell)} {next : Nat} {ptrs : List (Option Addr)} {st : St} (h : Core es next ptrs st) (hp : es.Perm es') : Core es' next ptrs st where
  nodup := (hp.map _).nodup_iff.1 h.nodup
  nodes a ha := h.nodes a ((hp.map _).mem_iff.2 ha)
  cells := (hp.map _).symm.trans h.cells
  sizes e he := h.sizes e (hp.mem_iff.2 he)
  follow := h.follow.imp (fun p w hh id hw => by
    obtain ⟨e, he, h1⟩ := hh id hw
    exact ⟨e, hp.mem_iff.1 he, h1⟩)

theorem Core.move {o new : Addr} {c : Cell} {R : List (Addr × Cell)} {next next' : Nat} {ptrs : List (Option Addr)} {st : St} (h : Core ((o, c) :: R) next ptrs st)
    (hn : new ∉ R.map Prod.fst) (hx : ∀ a, new = .node a → a < next') (hle : next ≤ next') : Core ((new, c) :: R) next' (updatePtrs ptrs (some new) o) st where
  nodup := by
    have := h.nodup
    rw [List.map_cons, List.nodup_cons] at this ⊢
    exact ⟨hn, this.2⟩
  nodes a ha := by
    rw [List.map_cons, List.mem_cons] at ha
    rcases ha with ha | ha
    · exact hx a ha.symm
    · exact Nat.lt_of_lt_of_le (h.nodes a (List.mem_cons_of_mem _ ha)) hle
  cells := h.cells
  sizes e he := by
    rcases List.mem_cons.1 he with he | he
    · subst he; exact h.sizes (o, c) (List.mem_cons_self ..)
    · exact h.sizes e (List.mem_cons_of_mem _ he)
  follow := by
    have hno : o ∉ R.map Prod.fst := by
      have := h.nodup
      rw [List.map_cons, List.nodup_cons] at this
      exact this.1
    unfold updatePtrs
    show List.Forall₂ _ _ _
    rw [List.forall₂_map_left_iff]
    refine h.follow.imp (fun p w hh id hw => ?_)
    obtain ⟨e, he, hp, hi⟩ := hh id hw
    rcases List.mem_cons.1 he with he | he
    · subst he
      exact ⟨(new, c), List.mem_cons_self .., if_pos hp, hi⟩
    · refine ⟨e, List.mem_cons_of_mem _ he, ?_, hi⟩
      rw [if_neg]
      · exact hp
      · intro hpo
        rw [hp] at hpo
        injection hpo with hpo
        exact hno (hpo ▸ List.mem_map_of_mem he)

theorem Core.add {es : List (Addr × Cell)} {next next' : Nat} {ptrs : List (Option Addr)} {st : St} {new : Addr} {c : Cell} (h : Core es next ptrs st)
    (hn : new ∉ es.map Prod.fst) (hx : ∀ a, new = .node a → a < next') (hle : next ≤ next') (hc : c.size ≠ 0) :
    Core ((new, c) :: es) next' ptrs { st with objs := (c.id, c.size) :: st.objs } where
  nodup := by rw [List.map_cons, List.nodup_cons]; exact ⟨hn, h.nodup⟩
  nodes a ha := by
    rw [List.map_cons, List.mem_cons] at ha
    rcases ha with ha | ha
    · exact hx a ha.symm
    · exact Nat.lt_of_lt_of_le (h.nodes a ha) hle
  cells := h.cells.cons _
  sizes e he := by
    rcases List.mem_cons.1 he with he | he
    · subst he; exact hc
    · exact h.sizes e he
  follow := h.follow.imp (fun p w hh id hw => by
    obtain ⟨e, he, h1⟩ := hh id hw
    exact ⟨e, List.mem_cons_of_mem _ he, h1⟩)

theorem Core.drop {a : Addr} {c : Cell} {R : List (Addr × Cell)} {next : Nat} {ptrs : List (Option Addr)} {st : St} (h : Core ((a, c) :: R) next ptrs st)
    (hd : st.objs.ids.Nodup) : Core R next ptrs (Spec.BakedTable.step st (.delete c.id)) where
  nodup := by
    have := h.nodup
    rw [List.map_cons, List.nodup_cons] at this
    exact this.2
  nodes x hx := h.nodes x (List.mem_cons_of_mem _ hx)
  cells := by
    have hc := h.cells
    rw [List.map_cons] at hc
    have hd' : (((c.id, c.size) :: R.map (fun e => (e.2.id, e.2.size))).map Prod.fst).Nodup := (hc.map Prod.fst).nodup_iff.2 hd
    rw [List.map_cons, List.nodup_cons] at hd'
    have hf := hc.filter (fun x => x.1 ≠ c.id)
    rw [List.filter_cons_of_neg (by simp)] at hf
    rw [List.filter_eq_self.2] at hf
    · exact hf
    · intro x hx
      have : x.1 ≠ c.id := fun he => hd'.1 (List.mem_map.2 ⟨x, hx, he⟩)
      simpa using this
  sizes e he := h.sizes e (List.mem_cons_of_mem _ he)
  follow := by
    show List.Forall₂ _ _ (List.map _ _)
    rw [List.forall₂_map_right_iff]
    refine h.follow.imp (fun p w hh id hw => ?_)
    by_cases hwc : w = some c.id
    · rw [if_pos hwc] at hw; cases hw
    · rw [if_neg hwc] at hw
      obtain ⟨e, he, hp, hi⟩ := hh id hw
      rcases List.mem_cons.1 he with he | he
      · subst he
        exact absurd (hw.trans (congrArg some hi.symm)) hwc
      · exact ⟨e, he, hp, hi⟩

theorem Core.forget {es : List (Addr × Cell)} {next : Nat} {ptrs : List (Option Addr)} {st : St} {a : Addr} (h : Core es next ptrs st) (q : Option Addr)
    (ha : a ∉ es.map Prod.fst) : Core es next (updatePtrs ptrs q a) st where
  nodup := h.nodup
  nodes := h.nodes
  cells := h.cells
  sizes := h.sizes
  follow := by
    unfold updatePtrs
    show List.Forall₂ _ _ _
    rw [List.forall₂_map_left_iff]
    refine h.follow.imp (fun p w hh id hw => ?_)
    obtain ⟨e, he, hp, hi⟩ := hh id hw
    refine ⟨e, he, ?_, hi⟩
    rw [if_neg]
    · exact hp
    · intro hpo
      rw [hp] at hpo
      injection hpo with hpo
      exact ha (hpo ▸ List.mem_map_of_mem he)

/-! ## The shape of the table -/

structure Shape (H : ObjId → Nat) (t : T) : Prop where
  chain : ∀ i, isEmpty (t.tab i).head = true → (t.tab i).chain = []
  home : ∀ i < hashsize t.pow, ∀ e ∈ visible t.gen i (t.tab i), H e.2.id &&& hashmask t.pow = i

theorem mem_visit {t : T} {e : Addr × Cell} : e ∈ visit t ↔ ∃ i < hashsize t.pow, e ∈ visible t.gen i (t.tab i) := by
  simp [visit, List.mem_flatMap, List.mem_range]

theorem mem_visible_slot {gen i : Nat} {b : Bucket} {g j : Nat} {c : Cell} (h : (Addr.slot g j, c) ∈ visible gen i b) : g = gen ∧ j = i ∧ c = b.head ∧ isEmpty b.head = false := by
  unfold visible at h
  split at h
  · cases h
  · rename_i hb
    unfold entries at h
    rcases List.mem_cons.1 h with h | h
    · injection h with h1 h2
      injection h1 with h3 h4
      exact ⟨h3, h4, h2, by simpa using hb⟩
    · obtain ⟨x, _, hx⟩ := List.mem_map.1 h
      injection hx with h1 _
      cases h1

/-- one bucket and the others -/
theorem visit_split (t : T) {i : Nat} (hi : i < hashsize t.pow) : ∃ R, (visit t).Perm (visible t.gen i (t.tab i) ++ R) ∧
    ∀ b, ∀ t' : T, t'.pow = t.pow → t'.gen = t.gen → t'.tab = setTab t.tab i b → (visit t').Perm (visible t.gen i b ++ R) := by
  have hp : (List.range (hashsize t.pow)).Perm (i :: (List.range (hashsize t.pow)).erase i) := List.perm_cons_erase (List.mem_range.2 hi)
  refine ⟨((List.range (hashsize t.pow)).erase i).flatMap (fun j => visible t.gen j (t.tab j)), ?_, ?_⟩
  · have := hp.flatMap_right (fun j => visible t.gen j (t.tab j))
    rwa [List.flatMap_cons] at this
  · intro b t' h1 h2 h3
    unfold visit
    rw [h1, h2, h3]
    have := hp.flatMap_right (fun j => visible t.gen j (setTab t.tab i b j))
    rw [List.flatMap_cons] at this
    refine this.trans ?_
    have h4 : setTab t.tab i b i = b := if_pos rfl
    rw [h4]
    refine List.Perm.append_left _ (List.Perm.of_eq ?_)
    refine List.flatMap_congr (fun j hj => ?_)
    have hne : j ≠ i := by
      intro he
      subst he
      exact (List.nodup_range.not_mem_erase) hj
    simp only [setTab, if_neg hne]

theorem add_slot {H : ObjId → Nat} {t : T} (hs : Shape H t) {c : Cell} {hv : Nat} (hhv : H c.id &&& hashmask t.pow = hv) (he : isEmpty (t.tab hv).head = true) (hc : c.size ≠ 0)
    (t' : T) (h1 : t'.pow = t.pow) (h2 : t'.gen = t.gen) (h3 : t'.tab = setTab t.tab hv ⟨c, []⟩) :
    Shape H t' ∧ (visit t').Perm ((.slot t.gen hv, c) :: visit t) ∧ Addr.slot t.gen hv ∉ (visit t).map Prod.fst := by
  have hlt : hv < hashsize t.pow := hhv ▸ mask_lt _ _
  have hce : isEmpty c = false := by simp [isEmpty, hc]
  have hv1 : visible t.gen hv ⟨c, []⟩ = [(.slot t.gen hv, c)] := by simp [visible, hce, entries]
  have hv0 : visible t.gen hv (t.tab hv) = [] := by simp [visible, he]
  refine ⟨⟨?_, ?_⟩, ?_, ?_⟩
  · intro i hi
    rw [h3] at hi ⊢
    by_cases hiv : i = hv
    · subst hiv; simp [setTab]
    · simp only [setTab, if_neg hiv] at hi ⊢
      exact hs.chain i hi
  · intro i hi e hei
    rw [h1] at hi ⊢
    rw [h2, h3] at hei
    by_cases hiv : i = hv
    · subst hiv
      rw [show setTab t.tab i ⟨c, []⟩ i = ⟨c, []⟩ from if_pos rfl, hv1, List.mem_singleton] at hei
      subst hei; exact hhv
    · simp only [setTab, if_neg hiv] at hei
      exact hs.home i hi e hei
  · obtain ⟨R, hR, hb⟩ := visit_split t hlt
    have := hb _ t' h1 h2 h3
    rw [hv1] at this
    rw [hv0] at hR
    exact this.trans ((List.Perm.cons _ hR).symm)
  · intro hm
    obtain ⟨⟨a, c'⟩, hm, ha⟩ := List.mem_map.1 hm
    obtain ⟨i, _, hi⟩ := mem_visit.1 hm
    change a = _ at ha
    subst ha
    obtain ⟨_, h5, _, h6⟩ := mem_visible_slot hi
    subst h5
    rw [he] at h6; cases h6

theorem add_node {H : ObjId → Nat} {t : T} (hs : Shape H t) {c : Cell} {hv a : Nat} (hhv : H c.id &&& hashmask t.pow = hv) (he : ¬ isEmpty (t.tab hv).head = true)
    (t' : T) (h1 : t'.pow = t.pow) (h2 : t'.gen = t.gen) (h3 : t'.tab = setTab t.tab hv ⟨(t.tab hv).head, (t.tab hv).chain ++ [(a, c)]⟩) :
    Shape H t' ∧ (visit t').Perm ((.node a, c) :: visit t) := by
  have hlt : hv < hashsize t.pow := hhv ▸ mask_lt _ _
  have hv1 : visible t.gen hv ⟨(t.tab hv).head, (t.tab hv).chain ++ [(a, c)]⟩ = visible t.gen hv (t.tab hv) ++ [(.node a, c)] := by simp [visible, he, entries]
  refine ⟨⟨?_, ?_⟩, ?_⟩
  · intro i hi
    rw [h3] at hi ⊢
    by_cases hiv : i = hv
    · subst hiv
      rw [show ∀ b, setTab t.tab i b i = b from fun b => if_pos rfl] at hi
      exact absurd hi he
    · simp only [setTab, if_neg hiv] at hi ⊢
      exact hs.chain i hi
  · intro i hi e hei
    rw [h1] at hi ⊢
    rw [h2, h3] at hei
    by_cases hiv : i = hv
    · subst hiv
      rw [show ∀ b, setTab t.tab i b i = b from fun b => if_pos rfl, hv1, List.mem_append, List.mem_singleton] at hei
      rcases hei with hei | hei
      · exact hs.home i hi e hei
      · subst hei; exact hhv
    · simp only [setTab, if_neg hiv] at hei
      exact hs.home i hi e hei
  · obtain ⟨R, hR, hb⟩ := visit_split t hlt
    have := hb _ t' h1 h2 h3
    rw [hv1] at this
    refine this.trans ?_
    refine List.Perm.trans ?_ (List.Perm.cons _ hR.symm)
    rw [List.append_assoc]
    exact List.perm_middle

/-! ## Growing -/

structure Mid (H : ObjId → Nat) (t : T) (rest : List (Addr × Cell)) (st : St) : Prop where
  shape : Shape H t
  core : Core (visit t ++ rest) t.next t.ptrs st
  old : ∀ g i, Addr.slot g i ∈ rest.map Prod.fst → g < t.gen

theorem moveInto_n (H : ObjId → Nat) (t : T) (e : Addr × Cell) : (moveInto H t e).n = t.n ∧ (moveInto H t e).pow = t.pow ∧ (moveInto H t e).gen = t.gen := by
  unfold moveInto
  dsimp only
  split
  · exact ⟨rfl, rfl, rfl⟩
  · split <;> exact ⟨rfl, rfl, rfl⟩

theorem mid_step {H : ObjId → Nat} {t : T} {e : Addr × Cell} {rest : List (Addr × Cell)} {st : St} (h : Mid H t (e :: rest) st) : Mid H (moveInto H t e) rest st := by
  obtain ⟨a, c⟩ := e
  have hcore : Core ((a, c) :: (visit t ++ rest)) t.next t.ptrs st := h.core.perm List.perm_middle
  have hc : c.size ≠ 0 := hcore.sizes (a, c) (List.mem_cons_self ..)
  have hgen := (moveInto_n H t (a, c)).2.2
  have hold : ∀ g i, Addr.slot g i ∈ rest.map Prod.fst → g < (moveInto H t (a, c)).gen := by
    intro g i hm; rw [hgen]; exact h.old g i (List.mem_cons_of_mem _ hm)
  unfold moveInto at hold ⊢
  dsimp only at hold ⊢
  split at hold
  · rename_i he
    rw [if_pos he]
    obtain ⟨h1, h2, h3⟩ := add_slot h.shape (c := c) rfl he hc
      { t with tab := setTab t.tab (H c.id &&& hashmask t.pow) ⟨c, []⟩, ptrs := updatePtrs t.ptrs (some (.slot t.gen (H c.id &&& hashmask t.pow))) a } rfl rfl rfl
    refine ⟨h1, ?_, hold⟩
    refine (Core.move hcore (new := .slot t.gen (H c.id &&& hashmask t.pow)) (next' := t.next) ?_ (fun a ha => by cases ha) (Nat.le_refl _)).perm (h2.symm.append_right rest)
    rw [List.map_append, List.mem_append]
    rintro (hm | hm)
    · exact h3 hm
    · exact Nat.lt_irrefl _ (h.old _ _ (List.mem_cons_of_mem _ hm))
  · rename_i he
    rw [if_neg he]
    cases a with
    | slot g i =>
      dsimp only at hold ⊢
      obtain ⟨h1, h2⟩ := add_node h.shape (c := c) (a := t.next) rfl he
        { t with tab := setTab t.tab (H c.id &&& hashmask t.pow) ⟨(t.tab (H c.id &&& hashmask t.pow)).head, (t.tab (H c.id &&& hashmask t.pow)).chain ++ [(t.next, c)]⟩, next := t.next + 1, ptrs := updatePtrs t.ptrs (some (.node t.next)) (.slot g i) } rfl rfl rfl
      refine ⟨h1, ?_, hold⟩
      refine (Core.move hcore (new := .node t.next) (next' := t.next + 1) ?_ (fun a ha => by injection ha with ha; omega) (Nat.le_succ _)).perm (h2.symm.append_right rest)
      intro hm
      exact Nat.lt_irrefl _ (hcore.nodes _ (List.mem_cons_of_mem _ hm))
    | node x =>
      dsimp only at hold ⊢
      obtain ⟨h1, h2⟩ := add_node h.shape (c := c) (a := x) rfl he
        { t with tab := setTab t.tab (H c.id &&& hashmask t.pow) ⟨(t.tab (H c.id &&& hashmask t.pow)).head, (t.tab (H c.id &&& hashmask t.pow)).chain ++ [(x, c)]⟩ } rfl rfl rfl
      exact ⟨h1, hcore.perm (h2.symm.append_right rest), hold⟩

theorem mid_fold {H : ObjId → Nat} {st : St} : ∀ (rest : List (Addr × Cell)) (t : T), Mid H t rest st →
    Mid H (rest.foldl (moveInto H) t) [] st ∧ (rest.foldl (moveInto H) t).n = t.n
  | [], _, h => ⟨h, rfl⟩
  | e :: rest, t, h => by
    obtain ⟨h1, h2⟩ := mid_fold rest _ (mid_step h)
    exact ⟨h1, h2.trans (moveInto_n H t e).1⟩

structure Inv (H : ObjId → Nat) (t : T) (st : St) : Prop where
  shape : Shape H t
  core : Core (visit t) t.next t.ptrs st
  n : t.n = st.objs.length
  nodup : st.objs.ids.Nodup

theorem visit_slot_gen {t : T} {g i : Nat} (h : Addr.slot g i ∈ (visit t).map Prod.fst) : g = t.gen := by
  obtain ⟨⟨a, c⟩, hm, ha⟩ := List.mem_map.1 h
  obtain ⟨j, _, hj⟩ := mem_visit.1 hm
  change a = _ at ha
  subst ha
  exact (mem_visible_slot hj).1

theorem expand_inv {H : ObjId → Nat} {t : T} {st : St} (h : Inv H t st) : Inv H (expand H t) st := by
  have hz : visit { t with pow := t.pow + 1, gen := t.gen + 1, tab := fun _ => {} } = [] := by
    simp [visit, visible, isEmpty]
  have hm : Mid H { t with pow := t.pow + 1, gen := t.gen + 1, tab := fun _ => {} } (visit t) st := by
    refine ⟨⟨fun i _ => rfl, fun i _ e he => ?_⟩, ?_, ?_⟩
    · simp [visible, isEmpty] at he
    · rw [hz]; exact h.core
    · intro g i hm
      rw [visit_slot_gen hm]
      exact Nat.lt_succ_self _
  obtain ⟨h1, h2⟩ := mid_fold _ _ hm
  refine ⟨h1.shape, ?_, h2.trans h.n, h.nodup⟩
  have := h1.core
  rw [List.append_nil] at this
  exact this

theorem grow_inv {H : ObjId → Nat} {t : T} {st : St} (h : Inv H t st) : Inv H (grow H t) st := by
  unfold grow
  split
  · exact expand_inv h
  · exact h

/-! ## The calls -/

theorem rd_of_mem {t : T} {a : Addr} {c : Cell} (hn : ((visit t).map Prod.fst).Nodup) (h : (a, c) ∈ visit t) : rd t a = .ok c := by
  unfold rd
  cases hf : (visit t).find? (fun e => e.1 = a) with
  | none =>
    have := List.find?_eq_none.1 hf _ h
    simp at this
  | some e =>
    have h1 := List.mem_of_find?_eq_some hf
    have h2 : e.1 = a := by simpa using List.find?_some hf
    have : e = (a, c) := List.inj_on_of_nodup_map hn h1 h h2
    subst this; rfl

theorem find_none {H : ObjId → Nat} {t : T} {id : ObjId} (hs : Shape H t) (h : find H t id = none) : ∀ e ∈ visit t, e.2.id ≠ id := by
  intro e he hid
  obtain ⟨i, hi, hei⟩ := mem_visit.1 he
  have hh := hs.home i hi e hei
  rw [hid] at hh
  unfold find at h
  dsimp only at h
  rw [hh] at h
  have := List.find?_eq_none.1 (Option.map_eq_none_iff.1 h) e hei
  simp [hid] at this

theorem find_some {H : ObjId → Nat} {t : T} {id : ObjId} {a : Addr} (h : find H t id = some a) : ∃ c, (a, c) ∈ visit t ∧ c.id = id := by
  unfold find at h
  obtain ⟨⟨b, c⟩, h1, h2⟩ := Option.map_eq_some_iff.1 h
  change b = a at h2
  subst h2
  exact ⟨c, mem_visit.2 ⟨_, mask_lt _ _, List.mem_of_find?_eq_some h1⟩, by simpa using List.find?_some h1⟩

theorem get_of_mem {st : St} {id : ObjId} {s : Nat} (hn : st.objs.ids.Nodup) (h : (id, s) ∈ st.objs) : st.get id = some (id, s) := by
  unfold St.get
  cases hf : st.objs.find? (fun x => x.1 = id) with
  | none =>
    have := List.find?_eq_none.1 hf _ h
    simp at this
  | some e =>
    have h1 := List.mem_of_find?_eq_some hf
    have h2 : e.1 = id := by simpa using List.find?_some hf
    exact congrArg some (List.inj_on_of_nodup_map hn h1 h h2)

theorem seen_find {H : ObjId → Nat} {t : T} {st : St} (h : Inv H t st) (id : ObjId) : seen t (find H t id) = .ok (st.get id) := by
  cases hf : find H t id with
  | none =>
    have h1 := find_none h.shape hf
    have h2 : st.get id = none := by
      unfold St.get
      rw [List.find?_eq_none]
      intro x hx
      obtain ⟨e, he, hx'⟩ := List.mem_map.1 (h.core.cells.mem_iff.2 hx)
      subst hx'
      simpa using h1 e he
    rw [h2]; rfl
  | some a =>
    obtain ⟨c, hm, hc⟩ := find_some hf
    have h2 : (c.id, c.size) ∈ st.objs := h.core.cells.mem_iff.1 (List.mem_map.2 ⟨(a, c), hm, rfl⟩)
    have h3 := get_of_mem h.nodup h2
    rw [hc] at h3
    show rd t a >>= _ = _
    rw [rd_of_mem h.core.nodup hm, h3, ← hc]; rfl

theorem put_inv {H : ObjId → Nat} {t : T} {st : St} (h : Inv H t st) {r : Req} (ha : Allowed st (.insert r)) :
    Inv H (put H t r).2 (Spec.BakedTable.step st (.insert r)) ∧ ((put H t r).1, (⟨r.id, r.size % u32⟩ : Cell)) ∈ visit (put H t r).2 := by
  have hnd : (Spec.BakedTable.step st (.insert r)).objs.ids.Nodup := List.nodup_cons.2 ⟨ha.1, h.nodup⟩
  have hlen : t.n + 1 = ((Spec.BakedTable.step st (.insert r)).objs.length : Int) := by
    rw [h.n]
    show _ = (((_ :: st.objs).length : Nat) : Int)
    rw [List.length_cons]; push_cast; rfl
  unfold put
  dsimp only
  split
  · rename_i he
    have hch := h.shape.chain _ he
    rw [hch]
    obtain ⟨h1, h2, h3⟩ := add_slot h.shape (c := ⟨r.id, r.size % u32⟩) rfl he ha.2
      { t with tab := setTab t.tab (H r.id &&& hashmask t.pow) ⟨⟨r.id, r.size % u32⟩, []⟩, n := t.n + 1 } rfl rfl rfl
    exact ⟨⟨h1, (h.core.add h3 (next' := t.next) (fun a ha => by cases ha) (Nat.le_refl _) ha.2).perm h2.symm, hlen, hnd⟩, h2.mem_iff.2 (List.mem_cons_self ..)⟩
  · rename_i he
    obtain ⟨h1, h2⟩ := add_node h.shape (c := ⟨r.id, r.size % u32⟩) (a := t.next) rfl he
      { t with tab := setTab t.tab (H r.id &&& hashmask t.pow) ⟨(t.tab (H r.id &&& hashmask t.pow)).head, (t.tab (H r.id &&& hashmask t.pow)).chain ++ [(t.next, ⟨r.id, r.size % u32⟩)]⟩, n := t.n + 1, next := t.next + 1 } rfl rfl rfl
    refine ⟨⟨h1, (h.core.add (fun hm => Nat.lt_irrefl _ (h.core.nodes _ hm)) (next' := t.next + 1) (fun a ha => by injection ha with ha; omega) (Nat.le_succ _) ha.2).perm h2.symm, hlen, hnd⟩, h2.mem_iff.2 (List.mem_cons_self ..)⟩

/-- shrinking one bucket keeps the shape -/
theorem shape_set {H : ObjId → Nat} {t : T} (hs : Shape H t) {hv : Nat} {b : Bucket} (hb : isEmpty b.head = true → b.chain = [])
    (hsub : ∀ e ∈ visible t.gen hv b, ∃ e' ∈ visible t.gen hv (t.tab hv), e'.2.id = e.2.id)
    (t' : T) (h1 : t'.pow = t.pow) (h2 : t'.gen = t.gen) (h3 : t'.tab = setTab t.tab hv b) : Shape H t' := by
  refine ⟨?_, ?_⟩
  · intro i hi
    rw [h3] at hi ⊢
    by_cases hiv : i = hv
    · subst hiv
      rw [show setTab t.tab i b i = b from if_pos rfl] at hi ⊢
      exact hb hi
    · simp only [setTab, if_neg hiv] at hi ⊢
      exact hs.chain i hi
  · intro i hi e hei
    rw [h1] at hi ⊢
    rw [h2, h3] at hei
    by_cases hiv : i = hv
    · subst hiv
      rw [show setTab t.tab i b i = b from if_pos rfl] at hei
      obtain ⟨e', he', hid⟩ := hsub e hei
      rw [← hid]
      exact hs.home i hi e' he'
    · simp only [setTab, if_neg hiv] at hei
      exact hs.home i hi e hei

theorem delete_len {st : St} {id : ObjId} {s : Nat} {rest : List (ObjId × Nat)} (hp : ((id, s) :: rest).Perm st.objs) {R : List (ObjId × Nat)} (hR : R.Perm (Spec.BakedTable.step st (.delete id)).objs)
    (hl : R.length = rest.length) {n : Int} (hn : n = st.objs.length) : n - 1 = ((Spec.BakedTable.step st (.delete id)).objs.length : Int) := by
  have h1 := hp.length_eq
  have h2 := hR.length_eq
  rw [List.length_cons] at h1
  omega

theorem delete_inv {H : ObjId → Nat} {t : T} {st : St} (h : Inv H t st) {a : Addr} {c : Cell} (hm : (a, c) ∈ visit t) :
    ∃ t', delete H t a = .ok t' ∧ Inv H t' (Spec.BakedTable.step st (.delete c.id)) := by
  obtain ⟨i, hi, hmi⟩ := mem_visit.1 hm
  have hh := h.shape.home i hi _ hmi
  change H c.id &&& hashmask t.pow = i at hh
  have hnd : (Spec.BakedTable.step st (.delete c.id)).objs.ids.Nodup := by
    refine List.Nodup.sublist ?_ h.nodup
    exact (List.filter_sublist ..).map _
  have hne : ¬ isEmpty (t.tab i).head = true := by
    intro he
    simp [visible, he] at hmi
  have hvis : visible t.gen i (t.tab i) = (.slot t.gen i, (t.tab i).head) :: (t.tab i).chain.map (fun x => (.node x.1, x.2)) := by
    simp [visible, hne, entries]
  obtain ⟨R, hR, hb⟩ := visit_split t hi
  unfold delete
  rw [rd_of_mem h.core.nodup hm, Res.bind_ok]
  dsimp only
  rw [hh, if_neg hne]
  by_cases ha : a = .slot t.gen i
  · rw [if_pos ha]
    have hc : c = (t.tab i).head := by
      rw [ha] at hmi
      exact (mem_visible_slot hmi).2.2.1
    cases hch : (t.tab i).chain with
    | nil =>
      refine ⟨_, rfl, ?_⟩
      rw [hch, List.map_nil, ← hc, ← ha] at hvis
      rw [hvis] at hR
      have hcore : Core ((a, c) :: R) t.next t.ptrs st := h.core.perm hR
      have hb' := hb {} { t with n := t.n - 1, tab := setTab t.tab i {}, ptrs := updatePtrs t.ptrs none a } rfl rfl rfl
      have hv' : visible t.gen i {} = [] := by simp [visible, isEmpty]
      rw [hv', List.nil_append] at hb'
      have hd := hcore.drop h.nodup
      have hna : a ∉ R.map Prod.fst := by
        have := hcore.nodup
        rw [List.map_cons, List.nodup_cons] at this
        exact this.1
      refine ⟨shape_set h.shape (fun _ => rfl) (fun e he => ?_) _ rfl rfl rfl, (hd.forget none hna).perm hb'.symm, ?_, hnd⟩
      · rw [hv'] at he; cases he
      · exact delete_len hcore.cells hd.cells (by rfl) h.n
    | cons x rest =>
      obtain ⟨x, c'⟩ := x
      refine ⟨_, rfl, ?_⟩
      rw [hch, List.map_cons, ← hc, ← ha] at hvis
      rw [hvis] at hR
      have hcore : Core ((a, c) :: (.node x, c') :: (rest.map (fun x => (Addr.node x.1, x.2)) ++ R)) t.next t.ptrs st := h.core.perm hR
      have hb' := hb ⟨c', rest⟩ { t with n := t.n - 1, tab := setTab t.tab i ⟨c', rest⟩, ptrs := updatePtrs t.ptrs (some a) (.node x) } rfl rfl rfl
      have hc' : isEmpty c' = false := by
        have := hcore.sizes (.node x, c') (by simp)
        simpa [isEmpty] using this
      have hv' : visible t.gen i ⟨c', rest⟩ = (a, c') :: rest.map (fun x => (Addr.node x.1, x.2)) := by
        simp [visible, hc', entries, ha]
      rw [hv'] at hb'
      have hd := hcore.drop h.nodup
      have hna : a ∉ (rest.map (fun x => (Addr.node x.1, x.2)) ++ R).map Prod.fst := by
        have := hcore.nodup
        rw [List.map_cons, List.nodup_cons, List.map_cons, List.mem_cons] at this
        exact fun hh => this.1 (Or.inr hh)
      refine ⟨shape_set h.shape (fun he => ?_) (fun e he => ?_) _ rfl rfl rfl,
        (hd.move hna (next' := t.next) (fun b hb => by rw [ha] at hb; cases hb) (Nat.le_refl _)).perm hb'.symm, ?_, hnd⟩
      · change isEmpty c' = true at he
        rw [hc'] at he; cases he
      · rw [hv'] at he
        rw [hvis]
        rcases List.mem_cons.1 he with he | he
        · subst he
          exact ⟨(.node x, c'), by simp, rfl⟩
        · exact ⟨e, List.mem_cons_of_mem _ (List.mem_cons_of_mem _ he), rfl⟩
      · exact delete_len hcore.cells hd.cells (by rfl) h.n
  · rw [if_neg ha]
    rw [hvis] at hmi
    rcases List.mem_cons.1 hmi with hmi | hmi
    · injection hmi with h1 _; exact absurd h1 ha
    · obtain ⟨x, hx, hxe⟩ := List.mem_map.1 hmi
      injection hxe with hx1 hx2
      obtain ⟨n, cx⟩ := x
      change Addr.node n = a at hx1
      change cx = c at hx2
      subst hx1; subst hx2
      have hany : (t.tab i).chain.any (fun y => Addr.node n = .node y.1) = true := List.any_eq_true.2 ⟨_, hx, by simp⟩
      rw [if_pos hany]
      refine ⟨_, rfl, ?_⟩
      obtain ⟨y, l1, l2, hl1, hy, hl, hle⟩ := List.exists_of_eraseP (p := fun y : Nat × Cell => decide (Addr.node n = .node y.1)) hx (by simp)
      have hyn : y.1 = n := by
        have : Addr.node n = Addr.node y.1 := by simpa using hy
        injection this with this
        exact this.symm
      have hnod : (((t.tab i).chain.map (fun x => (Addr.node x.1, x.2))).map Prod.fst).Nodup := by
        have := (h.core.perm hR).nodup
        rw [hvis, List.map_append] at this
        have := (List.nodup_append.1 this).1
        rw [List.map_cons, List.nodup_cons] at this
        exact this.2
      have hyc : y = (n, cx) := by
        have h1 : y ∈ (t.tab i).chain := by rw [hl]; simp
        rw [List.map_map] at hnod
        exact List.inj_on_of_nodup_map hnod h1 hx (by simp [hyn])
      subst hyc
      have hb' := hb ⟨(t.tab i).head, (t.tab i).chain.eraseP (fun x => Addr.node n = .node x.1)⟩
        { t with n := t.n - 1, tab := setTab t.tab i ⟨(t.tab i).head, (t.tab i).chain.eraseP (fun x => Addr.node n = .node x.1)⟩, ptrs := updatePtrs t.ptrs none (.node n) } rfl rfl rfl
      have hv' : visible t.gen i ⟨(t.tab i).head, (t.tab i).chain.eraseP (fun x => Addr.node n = .node x.1)⟩ =
          (.slot t.gen i, (t.tab i).head) :: (l1 ++ l2).map (fun x => (Addr.node x.1, x.2)) := by
        rw [hle]
        simp [visible, hne, entries]
      rw [hv'] at hb'
      have hperm : (visible t.gen i (t.tab i)).Perm ((.node n, cx) :: (.slot t.gen i, (t.tab i).head) :: (l1 ++ l2).map (fun x => (Addr.node x.1, x.2))) := by
        rw [hvis, hl]
        refine List.Perm.trans (List.Perm.cons _ ?_) (List.Perm.swap ..)
        rw [List.map_append, List.map_cons, List.map_append]
        exact List.perm_middle
      have hcore : Core ((.node n, cx) :: ((.slot t.gen i, (t.tab i).head) :: (l1 ++ l2).map (fun x => (Addr.node x.1, x.2)) ++ R)) t.next t.ptrs st :=
        h.core.perm (hR.trans (hperm.append_right R))
      have hd := hcore.drop h.nodup
      have hna : Addr.node n ∉ ((.slot t.gen i, (t.tab i).head) :: (l1 ++ l2).map (fun x => (Addr.node x.1, x.2)) ++ R).map Prod.fst := by
        have := hcore.nodup
        rw [List.map_cons, List.nodup_cons] at this
        exact this.1
      refine ⟨shape_set h.shape (b := ⟨(t.tab i).head, (t.tab i).chain.eraseP (fun x => Addr.node n = .node x.1)⟩) (fun he => absurd he hne) (fun e he => ?_) _ rfl rfl rfl, (hd.forget none hna).perm hb'.symm, ?_, hnd⟩
      · rw [hv'] at he
        exact ⟨e, hperm.mem_iff.2 (List.mem_cons_of_mem _ he), rfl⟩
      · exact delete_len hcore.cells hd.cells (by rfl) h.n

theorem delete_absent {st : St} {id : ObjId} (h : st.get id = none) {es : List (Addr × Cell)} {next : Nat} {ptrs : List (Option Addr)} (hc : Core es next ptrs st) :
    (Spec.BakedTable.step st (.delete id)).objs = st.objs ∧ Core es next ptrs (Spec.BakedTable.step st (.delete id)) := by
  have hno : ∀ x ∈ st.objs, x.1 ≠ id := fun x hx => by simpa using List.find?_eq_none.1 h x hx
  have ho : (Spec.BakedTable.step st (.delete id)).objs = st.objs := List.filter_eq_self.2 (fun x hx => by simpa using hno x hx)
  refine ⟨ho, ⟨hc.nodup, hc.nodes, ?_, hc.sizes, ?_⟩⟩
  · rw [ho]; exact hc.cells
  · show List.Forall₂ _ _ (List.map _ _)
    rw [List.forall₂_map_right_iff]
    refine hc.follow.imp (fun p w hh id' hw => ?_)
    by_cases hwc : w = some id
    · rw [if_pos hwc] at hw; cases hw
    · rw [if_neg hwc] at hw
      exact hh id' hw

theorem exec_inv {H : ObjId → Nat} {t : T} {st : St} (h : Inv H t st) {c : Call} (ha : Allowed st c) :
    ∃ t', exec H t c = .ok (answer st c, t') ∧ Inv H t' (Spec.BakedTable.step st c) := by
  cases c with
  | insert r =>
    obtain ⟨h1, h2⟩ := put_inv (grow_inv h) ha
    refine ⟨_, ?_, h1⟩
    show (rd (put H (grow H t) r).2 (put H (grow H t) r).1 >>= _) >>= _ = _
    rw [rd_of_mem h1.core.nodup h2]; rfl
  | find id =>
    refine ⟨t, ?_, h⟩
    show seen t (find H t id) >>= _ = _
    rw [seen_find h id]; rfl
  | delete id =>
    have hs := seen_find h id
    cases hf : find H t id with
    | none =>
      refine ⟨t, ?_, ?_⟩
      · show (seen t (find H t id) >>= fun o => match find H t id with | none => .ok (o, t) | some a => delete H t a >>= fun t' => .ok (o, t')) = _
        rw [hs, hf]; rfl
      · rw [hf] at hs
        have hg : st.get id = none := by injection hs with hs; exact hs.symm
        obtain ⟨h1, h2⟩ := delete_absent hg h.core
        exact ⟨h.shape, h2, by rw [h1]; exact h.n, by rw [h1]; exact h.nodup⟩
    | some a =>
      obtain ⟨c, hm, hc⟩ := find_some hf
      obtain ⟨t', h1, h2⟩ := delete_inv h hm
      rw [hc] at h2
      refine ⟨t', ?_, h2⟩
      show (seen t (find H t id) >>= fun o => match find H t id with | none => .ok (o, t) | some a => delete H t a >>= fun t' => .ok (o, t')) = _
      rw [hs, hf, Res.bind_ok]
      dsimp only
      rw [h1]; rfl
  | watch id =>
    refine ⟨HashTableV1.watch t (find H t id), ?_, ?_⟩
    · show seen t (find H t id) >>= _ = _
      rw [seen_find h id]; rfl
    · refine ⟨⟨h.shape.chain, h.shape.home⟩, ⟨h.core.nodup, h.core.nodes, h.core.cells, h.core.sizes, ?_⟩, h.n, h.nodup⟩
      refine List.rel_append h.core.follow (List.Forall₂.cons (fun id' hid => ?_) List.Forall₂.nil)
      split at hid
      · rename_i hmem
        injection hid with hid
        subst hid
        cases hf : find H t id with
        | none =>
          obtain ⟨x, hx, hxe⟩ := List.mem_map.1 hmem
          obtain ⟨e, he, hxe'⟩ := List.mem_map.1 (h.core.cells.mem_iff.2 hx)
          subst hxe'
          exact absurd hxe (find_none h.shape hf e he)
        | some a =>
          obtain ⟨c, hm, hc⟩ := find_some hf
          exact ⟨(a, c), hm, rfl, hc⟩
      · cases hid

theorem execAll_inv {H : ObjId → Nat} : ∀ (cs : List Call) (t : T) (st : St), Inv H t st → AllAllowed st cs →
    ∃ t', execAll H t cs = .ok (answers st cs, t') ∧ Inv H t' (after st cs)
  | [], t, _, h, _ => ⟨t, rfl, h⟩
  | c :: cs, t, st, h, ha => by
    obtain ⟨t1, h1, h2⟩ := exec_inv h ha.1
    obtain ⟨t2, h3, h4⟩ := execAll_inv cs t1 _ h2 ha.2
    refine ⟨t2, ?_, h4⟩
    show exec H t c >>= _ = _
    rw [h1, Res.bind_ok]
    dsimp only
    rw [h3]; rfl

theorem create_inv (H : ObjId → Nat) (pow : Nat) : Inv H (create pow) {} := by
  have hz : visit (create pow) = [] := by simp [visit, visible, isEmpty, create]
  refine ⟨⟨fun i _ => rfl, fun i _ e he => ?_⟩, ?_, rfl, List.nodup_nil⟩
  · simp [visible, isEmpty, create] at he
  · rw [hz]
    exact ⟨List.nodup_nil, by simp, List.Perm.refl _, by simp, List.Forall₂.nil⟩

/-! ## The random object -/

theorem randFrom_spec {t : T} : ∀ (m pos : Nat), pos < hashsize t.pow → (∃ d < m, isEmpty (t.tab ((pos + d) % hashsize t.pow)).head = false) →
    ∃ i < hashsize t.pow, randFrom t m pos = .ok (.slot t.gen i) ∧ isEmpty (t.tab i).head = false
  | 0, _, _, h => by obtain ⟨d, hd, _⟩ := h; omega
  | m + 1, pos, hpos, h => by
    unfold randFrom
    split
    · rename_i he
      rw [mask_eq]
      refine randFrom_spec m _ (Nat.mod_lt _ (hashsize_pos _)) ?_
      obtain ⟨d, hd, hde⟩ := h
      cases d with
      | zero =>
        rw [Nat.add_zero, Nat.mod_eq_of_lt hpos, he] at hde; cases hde
      | succ d =>
        refine ⟨d, by omega, ?_⟩
        rw [Nat.mod_add_mod, Nat.add_assoc, Nat.add_comm 1 d]
        exact hde
    · rename_i he
      exact ⟨pos, hpos, rfl, by simpa using he⟩

theorem randObj_spec {t : T} (hne : visit t ≠ []) (v : Nat) : ∃ i < hashsize t.pow, randObj t v = .ok (.slot t.gen i) ∧ (Addr.slot t.gen i, (t.tab i).head) ∈ visit t := by
  obtain ⟨e, he⟩ := List.exists_mem_of_ne_nil _ hne
  obtain ⟨j, hj, hej⟩ := mem_visit.1 he
  have hje : isEmpty (t.tab j).head = false := by
    by_contra hc
    have : isEmpty (t.tab j).head = true := by simpa using hc
    simp [visible, this] at hej
  obtain ⟨i, hi, h1, h2⟩ := randFrom_spec (t := t) (hashsize t.pow) (v &&& hashmask t.pow) (mask_lt _ _) (by
    refine ⟨(j + hashsize t.pow - (v &&& hashmask t.pow)) % hashsize t.pow, Nat.mod_lt _ (hashsize_pos _), ?_⟩
    have hlt := mask_lt v t.pow
    rw [Nat.add_mod_mod, show (v &&& hashmask t.pow) + (j + hashsize t.pow - (v &&& hashmask t.pow)) = j + hashsize t.pow from by omega, Nat.add_mod_right, Nat.mod_eq_of_lt hj]
    exact hje)
  refine ⟨i, hi, h1, mem_visit.2 ⟨i, hi, ?_⟩⟩
  simp [visible, h2, entries]

end Verif.HashTableV1
