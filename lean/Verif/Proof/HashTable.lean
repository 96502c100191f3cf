import Verif.Spec.HashTable
import Mathlib.Data.List.Perm.Basic
import Mathlib.Data.List.Nodup
/-! # The chained hash table implements a finite map: proofs -/

namespace Verif.HashTable
open Verif.Spec

/-- `p` is the head of the chain holding exactly `l`. -/
def Ch (h : Heap) : Ptr → List (ObjId × Addr) → Prop
  | p, [] => p = none
  | p, e :: l => p = some e.2 ∧ ∃ nx, h e.2 = some ⟨e.1, nx⟩ ∧ Ch h nx l

theorem Ch.frame {h h' : Heap} : ∀ {l p}, Ch h p l → (∀ e ∈ l, h' e.2 = h e.2) → Ch h' p l
  | [], _, hc, _ => hc
  | e :: l, p, ⟨hp, nx, hx, hc⟩, hf =>
    ⟨hp, nx, by rw [hf e (by simp), hx], hc.frame (fun e' he' => hf e' (by simp [he']))⟩

/-- Buckets `es`, each entry in the bucket its hash selects. -/
structure Tab (H : ObjId → Nat) (t : T) (es : Nat → List (ObjId × Addr)) : Prop where
  chain : ∀ i, i < 2 ^ t.pow → Ch t.h (t.tab i) (es i)
  place : ∀ i, i < 2 ^ t.pow → ∀ e ∈ es i, H e.1 % 2 ^ t.pow = i

def all (t : T) (es : Nat → List (ObjId × Addr)) : List (ObjId × Addr) := (List.range (2 ^ t.pow)).flatMap es

/-- The table represents the map `m`. -/
structure Rel (H : ObjId → Nat) (t : T) (m : Map) (es : Nat → List (ObjId × Addr)) : Prop where
  tab : Tab H t es
  perm : m.Perm (all t es)
  ids : (m.map Prod.fst).Nodup
  addrs : (m.map Prod.snd).Nodup
  count : t.n = m.length

def upd (es : Nat → List (ObjId × Addr)) (i : Nat) (l : List (ObjId × Addr)) : Nat → List (ObjId × Addr) :=
  fun j => if j = i then l else es j

theorem hv_eq (H : ObjId → Nat) (id : ObjId) (p : Nat) : H id &&& hashmask p = H id % 2 ^ p := by
  simp [hashmask, hashsize, Nat.one_shiftLeft, Nat.and_two_pow_sub_one_eq_mod]

theorem hashsize_eq (p : Nat) : hashsize p = 2 ^ p := by simp [hashsize, Nat.one_shiftLeft]

theorem flatMap_upd_of_not_mem (es : Nat → List (ObjId × Addr)) (i l) : ∀ (is : List Nat), i ∉ is →
    is.flatMap (upd es i l) = is.flatMap es
  | [], _ => rfl
  | j :: is, h => by
    have h1 : j ≠ i := fun e => h (by simp [e])
    have h2 : i ∉ is := fun e => h (by simp [e])
    simp [upd, h1]
    exact flatMap_upd_of_not_mem es i l is h2

/-- splitting off bucket `i` -/
theorem flatMap_split (es : Nat → List (ObjId × Addr)) (i l) : ∀ (is : List Nat), is.Nodup → i ∈ is →
    (is.flatMap (upd es i l)).Perm (l ++ is.flatMap (upd es i []))
  | [], _, h => by simp at h
  | j :: is, hn, h => by
    rw [List.nodup_cons] at hn
    by_cases hj : j = i
    · subst hj
      simp only [List.flatMap_cons]
      rw [flatMap_upd_of_not_mem es j l is hn.1, flatMap_upd_of_not_mem es j [] is hn.1]
      simp [upd]
    · have h2 : i ∈ is := by simpa [Ne.symm hj] using h
      have ih := flatMap_split es i l is hn.2 h2
      simp only [List.flatMap_cons]
      have e1 : upd es i l j = es j := by simp [upd, hj]
      have e2 : upd es i [] j = es j := by simp [upd, hj]
      rw [e1, e2]
      refine (ih.append_left _).trans ?_
      rw [← List.append_assoc, ← List.append_assoc]
      exact List.perm_append_comm.append_right _

theorem upd_self (es : Nat → List (ObjId × Addr)) (i) : upd es i (es i) = es := by
  funext j; simp only [upd]; split <;> simp_all

theorem all_split {t : T} (es : Nat → List (ObjId × Addr)) {i} (hi : i < 2 ^ t.pow) (l) :
    (all t (upd es i l)).Perm (l ++ all t (upd es i [])) :=
  flatMap_split es i l _ List.nodup_range (by simpa using hi)

theorem all_split_self {t : T} (es : Nat → List (ObjId × Addr)) {i} (hi : i < 2 ^ t.pow) :
    (all t es).Perm (es i ++ all t (upd es i [])) := by
  have := all_split (t := t) es hi (es i)
  rwa [upd_self] at this

theorem mem_all {t : T} {es : Nat → List (ObjId × Addr)} {e} : e ∈ all t es ↔ ∃ i < 2 ^ t.pow, e ∈ es i := by
  simp [all]

theorem hv_lt (t : T) (x : Nat) : x % 2 ^ t.pow < 2 ^ t.pow := Nat.mod_lt _ (Nat.two_pow_pos _)

/-! ## Adding to a bucket -/

theorem addToBucket_spec {H : ObjId → Nat} {t : T} {es} (ht : Tab H t es) {a id nx}
    (hc : t.h a = some ⟨id, nx⟩) (hnx : nx = none) (ha : ∀ i < 2 ^ t.pow, ∀ e ∈ es i, e.2 ≠ a) :
    ∃ t', addToBucket H t a = .ok t' ∧ t'.pow = t.pow ∧ t'.n = t.n ∧ t'.ext = t.ext ∧
      (∀ y, y ≠ a → t'.h y = t.h y) ∧
      Tab H t' (upd es (H id % 2 ^ t.pow) ((id, a) :: es (H id % 2 ^ t.pow))) := by
  subst hnx
  simp only [addToBucket, rd, hc, Res.bind_ok, hv_eq]
  generalize hj : H id % 2 ^ t.pow = j
  have hjl : j < 2 ^ t.pow := hj ▸ hv_lt t _
  have hch := ht.chain j hjl
  cases htj : t.tab j with
  | none =>
    refine ⟨_, rfl, rfl, rfl, rfl, fun _ _ => rfl, ?_, ?_⟩
    · intro i hi
      by_cases hij : i = j
      · subst hij
        have hnil : es i = [] := by
          cases hes : es i with
          | nil => rfl
          | cons e l => rw [hes, htj] at hch; simp [Ch] at hch
        simp [upd, setTab, hnil, Ch, hc]
      · simpa [upd, setTab, hij] using ht.chain i hi
    · intro i hi e he
      by_cases hij : i = j
      · subst hij
        simp [upd] at he
        rcases he with rfl | he
        · exact hj
        · exact ht.place i hi e he
      · simp [upd, hij] at he; exact ht.place i hi e he
  | some hp =>
    refine ⟨_, rfl, rfl, rfl, rfl, fun y hy => by simp [put, hy], ?_, ?_⟩
    · intro i hi
      have hi' : i < 2 ^ t.pow := hi
      by_cases hij : i = j
      · subst hij
        simp only [upd, setTab, if_true]
        refine ⟨rfl, some hp, by simp [put], ?_⟩
        rw [htj] at hch
        exact hch.frame (fun e he => by simp [put, ha i hi' e he])
      · simp only [upd, setTab, hij, if_false]
        exact (ht.chain i hi').frame (fun e he => by simp [put, ha i hi' e he])
    · intro i hi e he
      by_cases hij : i = j
      · subst hij
        simp [upd] at he
        rcases he with rfl | he
        · exact hj
        · exact ht.place i hi e he
      · simp [upd, hij] at he; exact ht.place i hi e he

/-! ## Expansion -/

theorem expandChain_spec {H : ObjId → Nat} : ∀ (l : List (ObjId × Addr)) (k : Nat) (t : T) (p : Ptr) (es),
    l.length ≤ k → Tab H t es → Ch t.h p l → ((all t es ++ l).map Prod.snd).Nodup →
    ∃ t' es', expandChain H k t p = .ok t' ∧ t'.pow = t.pow ∧ t'.n = t.n ∧ t'.ext = t.ext ∧ Tab H t' es' ∧
      (all t' es').Perm (all t es ++ l) ∧ (∀ y, y ∉ l.map Prod.snd → t'.h y = t.h y)
  | [], k, t, p, es, _, ht, hc, _ => by
    have : p = none := hc
    subst this
    exact ⟨t, es, by cases k <;> rfl, rfl, rfl, rfl, ht, by simp, fun _ _ => rfl⟩
  | (id, a) :: l, 0, t, p, es, hk, _, _, _ => by simp at hk
  | (id, a) :: l, k + 1, t, p, es, hk, ht, ⟨hp, nx, hx, hc⟩, hn => by
    simp only at hp hx
    subst hp
    have hn' := hn
    simp only [List.map_append, List.map_cons] at hn
    rw [List.nodup_append] at hn
    obtain ⟨n1, n2, n3⟩ := hn
    rw [List.nodup_cons] at n2
    have ha : ∀ i < 2 ^ t.pow, ∀ e ∈ es i, e.2 ≠ a := fun i hi e he =>
      n3 _ (List.mem_map_of_mem (mem_all.2 ⟨i, hi, he⟩)) _ (by simp)
    have hal : ∀ e ∈ l, e.2 ≠ a := fun e he h => n2.1 (h ▸ List.mem_map_of_mem he)
    set t1 : T := { t with h := put t.h a ⟨id, none⟩ } with ht1
    have hT1 : Tab H t1 es :=
      ⟨fun i hi => (ht.chain i hi).frame (fun e he => by simp [ht1, put, ha i hi e he]), ht.place⟩
    obtain ⟨t2, r2, p2, c2, x2, f2, T2⟩ := addToBucket_spec (a := a) (id := id) (nx := none) hT1 (by simp [ht1, put]) rfl ha
    have hjl : H id % 2 ^ t1.pow < 2 ^ t2.pow := by rw [p2]; exact hv_lt t1 _
    have hall : (all t2 (upd es (H id % 2 ^ t1.pow) ((id, a) :: es (H id % 2 ^ t1.pow)))).Perm ((id, a) :: all t es) := by
      refine (all_split es hjl _).trans ?_
      simp only [List.cons_append]
      refine List.Perm.cons _ ?_
      have := all_split_self (t := t2) es hjl
      refine this.symm.trans ?_
      simp only [all, p2, ht1]
      exact List.Perm.refl _
    have hperm : ((all t es) ++ (id, a) :: l).Perm (all t2 (upd es (H id % 2 ^ t1.pow) ((id, a) :: es (H id % 2 ^ t1.pow))) ++ l) :=
      (List.perm_middle.trans (by simp)).trans (hall.symm.append_right l)
    have hc2 : Ch t2.h nx l := hc.frame (fun e he => by
      rw [f2 _ (hal e he)]; simp [ht1, put, hal e he])
    obtain ⟨t3, es3, r3, p3, c3, x3, T3, q3, f3⟩ := expandChain_spec l k t2 nx _ (by simpa using hk) T2 hc2
      ((hperm.map Prod.snd).nodup_iff.1 hn')
    refine ⟨t3, es3, ?_, p3.trans p2, c3.trans c2, x3.trans x2, T3, q3.trans hperm.symm, ?_⟩
    · simp only [expandChain, rd, hx, Res.bind_ok]
      rw [show ({ t with h := put t.h a ⟨id, none⟩ } : T) = t1 from rfl, r2]
      simpa using r3
    · intro y hy
      simp at hy
      rw [f3 y (by simpa using hy.2), f2 y hy.1]
      simp [ht1, put, hy.1]

theorem expandLoop_spec {H : ObjId → Nat} (old : Nat → Ptr) (fuel : Nat) (eo : Nat → List (ObjId × Addr)) :
    ∀ (is : List Nat) (t : T) (es), (∀ i ∈ is, (eo i).length ≤ fuel) → Tab H t es → (∀ i ∈ is, Ch t.h (old i) (eo i)) →
    ((all t es ++ is.flatMap eo).map Prod.snd).Nodup →
    ∃ t' es', expandLoop H old fuel t is = .ok t' ∧ t'.pow = t.pow ∧ t'.n = t.n ∧ t'.ext = t.ext ∧ Tab H t' es' ∧
      (all t' es').Perm (all t es ++ is.flatMap eo) ∧ (∀ y, y ∉ (is.flatMap eo).map Prod.snd → t'.h y = t.h y)
  | [], t, es, _, ht, _, _ => ⟨t, es, rfl, rfl, rfl, rfl, ht, by simp, fun _ _ => rfl⟩
  | i :: is, t, es, hf, ht, hc, hn => by
    simp only [List.flatMap_cons, ← List.append_assoc] at hn ⊢
    have hn1 : ((all t es ++ eo i).map Prod.snd).Nodup := by
      rw [List.map_append] at hn; exact (List.nodup_append.1 hn).1
    obtain ⟨t1, es1, r1, p1, c1, x1, T1, q1, f1⟩ :=
      expandChain_spec (eo i) fuel t (old i) es (hf i (by simp)) ht (hc i (by simp)) hn1
    have hdisj : ∀ j ∈ is, ∀ e ∈ eo j, e.2 ∉ (eo i).map Prod.snd := by
      intro j hj e he hmem
      rw [List.map_append] at hn
      refine (List.nodup_append.1 hn).2.2 e.2 ?_ e.2 ?_ rfl
      · rw [List.map_append]; exact List.mem_append_right _ hmem
      · exact List.mem_map_of_mem (List.mem_flatMap.2 ⟨j, hj, he⟩)
    obtain ⟨t2, es2, r2, p2, c2, x2, T2, q2, f2⟩ := expandLoop_spec old fuel eo is t1 es1 (fun j hj => hf j (by simp [hj])) T1
      (fun j hj => (hc j (by simp [hj])).frame (fun e he => f1 _ (hdisj j hj e he)))
      (by
        have : (all t1 es1 ++ is.flatMap eo).Perm (all t es ++ eo i ++ is.flatMap eo) := q1.append_right _
        exact (this.map Prod.snd).nodup_iff.2 hn)
    refine ⟨t2, es2, ?_, p2.trans p1, c2.trans c1, x2.trans x1, T2, q2.trans (q1.append_right _), ?_⟩
    · simp [expandLoop, r1, r2]
    · intro y hy
      rw [List.map_append, List.mem_append, not_or] at hy
      rw [f2 y hy.2, f1 y hy.1]

theorem len_bucket {t : T} {es : Nat → List (ObjId × Addr)} {i} (hi : i < 2 ^ t.pow) : (es i).length ≤ (all t es).length := by
  have := (all_split_self (t := t) es hi).length_eq
  simp at this; omega

theorem Rel.len {H t m es} (hr : Rel H t m es) {i} (hi : i < 2 ^ t.pow) : (es i).length ≤ t.n.toNat := by
  have := len_bucket (t := t) (es := es) hi
  rw [← hr.perm.length_eq] at this
  rw [hr.count]; simpa using this

theorem expand_spec {H t m es} (hr : Rel H t m es) :
    ∃ t' es', expand H t = .ok t' ∧ t'.pow = t.pow + 1 ∧ t'.ext = t.ext ∧ Rel H t' m es' ∧
      (∀ y, y ∉ m.map Prod.snd → t'.h y = t.h y) := by
  set t0 : T := { t with tab := fun _ => none, pow := t.pow + 1 } with ht0
  have T0 : Tab H t0 (fun _ => []) := ⟨fun i _ => rfl, fun i _ e he => by simp at he⟩
  have hall0 : all t0 (fun _ => []) = [] := by simp [all]
  obtain ⟨t1, es1, r1, p1, c1, x1, T1, q1, f1⟩ := expandLoop_spec (H := H) t.tab t.n.toNat es (List.range (2 ^ t.pow)) t0 (fun _ => [])
    (fun i hi => hr.len (by simpa using hi)) T0 (fun i hi => hr.tab.chain i (by simpa using hi))
    (by rw [hall0]; exact ((hr.perm.map Prod.snd).nodup_iff.1 hr.addrs))
  refine ⟨t1, es1, by rw [expand, hashsize_eq]; exact r1, p1, x1, ⟨T1, ?_, hr.ids, hr.addrs, c1.trans hr.count⟩, ?_⟩
  · rw [hall0] at q1
    exact hr.perm.trans q1.symm
  · intro y hy
    exact f1 y (fun hm => hy ((hr.perm.map Prod.snd).mem_iff.2 hm))

/-! ## Looking up -/

theorem findChain_spec {h : Heap} (id : ObjId) : ∀ (l : List (ObjId × Addr)) (k p), l.length ≤ k → Ch h p l →
    findChain h id k p = .ok ((l.find? (fun e => e.1 = id)).map Prod.snd)
  | [], k, p, _, hc => by
    have : p = none := hc
    subst this; cases k <;> rfl
  | e :: l, 0, p, hk, _ => by simp at hk
  | e :: l, k + 1, p, hk, ⟨hp, nx, hx, hc⟩ => by
    subst hp
    simp only [findChain, rd, hx, Res.bind_ok]
    by_cases he : e.1 = id
    · simp [he]
    · simp only [he, if_false]
      rw [findChain_spec id l k nx (by simpa using hk) hc]
      simp [he]

theorem find?_map_eq {l l' : Map} (hn : (l'.map Prod.fst).Nodup) (id) (h : ∀ e ∈ l', e.1 = id → e ∈ l) (hs : ∀ e ∈ l, e ∈ l') :
    l.find? (fun e => e.1 = id) = l'.find? (fun e => e.1 = id) := by
  cases h1 : l.find? (fun e => e.1 = id) with
  | none =>
    symm; rw [List.find?_eq_none] at h1 ⊢
    intro e he hid
    exact h1 e (h e he (by simpa using hid)) hid
  | some x =>
    have hx := List.mem_of_find?_eq_some h1
    have hxid : x.1 = id := by simpa using List.find?_some h1
    cases h2 : l'.find? (fun e => e.1 = id) with
    | none =>
      rw [List.find?_eq_none] at h2
      exact absurd (by simpa using hxid) (h2 x (hs x hx))
    | some y =>
      have hy := List.mem_of_find?_eq_some h2
      have hyid : y.1 = id := by simpa using List.find?_some h2
      congr 1
      exact List.inj_on_of_nodup_map hn (hs x hx) hy (hxid.trans hyid.symm)

theorem Rel.bucket {H t m es} (hr : Rel H t m es) {e : ObjId × Addr} (he : e ∈ m) : e ∈ es (H e.1 % 2 ^ t.pow) := by
  obtain ⟨i, hi, hei⟩ := mem_all.1 (hr.perm.mem_iff.1 he)
  rw [hr.tab.place i hi e hei]; exact hei

theorem Rel.mem {H t m es} (hr : Rel H t m es) {e i} (hi : i < 2 ^ t.pow) (he : e ∈ es i) : e ∈ m :=
  hr.perm.mem_iff.2 (mem_all.2 ⟨i, hi, he⟩)

theorem find_spec {H t m es} (hr : Rel H t m es) (id : ObjId) : find H t id = .ok (m.get id) := by
  have hj := hv_lt t (H id)
  rw [find, hv_eq, findChain_spec id _ _ _ (hr.len hj) (hr.tab.chain _ hj), Map.get,
    find?_map_eq hr.ids id (fun e he hid => hid ▸ hr.bucket he) (fun e he => hr.mem hj he)]

/-! ## Insertion -/

theorem insertObj_core {H t m es} (hr : Rel H t m es) {a id} (hid : id ∉ m.map Prod.fst) (ha : a ∉ m.map Prod.snd)
    (hc : t.h a = some ⟨id, none⟩) :
    ∃ t' es', (addToBucket H t a >>= fun t => (.ok { t with n := t.n + 1 } : Res T)) = .ok t' ∧ t'.pow = t.pow ∧ t'.ext = t.ext ∧
      Rel H t' ((id, a) :: m) es' ∧ (∀ y, y ≠ a → t'.h y = t.h y) := by
  have ha' : ∀ i < 2 ^ t.pow, ∀ e ∈ es i, e.2 ≠ a := fun i hi e he h =>
    ha (h ▸ List.mem_map_of_mem (hr.mem hi he))
  obtain ⟨t2, r2, p2, c2, x2, f2, T2⟩ := addToBucket_spec hr.tab hc rfl ha'
  have hj : H id % 2 ^ t.pow < 2 ^ t2.pow := by rw [p2]; exact hv_lt t _
  refine ⟨{ t2 with n := t2.n + 1 }, _, by simp [r2], p2, x2, ⟨⟨T2.chain, T2.place⟩, ?_, ?_, ?_, ?_⟩, f2⟩
  · have h1 := all_split (t := t2) es hj ((id, a) :: es (H id % 2 ^ t.pow))
    refine List.Perm.trans ?_ h1.symm
    simp only [List.cons_append]
    refine List.Perm.cons _ (hr.perm.trans ?_)
    have := all_split_self (t := t2) es hj
    simp only [all, p2] at this ⊢
    exact this
  · simp only [List.map_cons, List.nodup_cons]; exact ⟨hid, hr.ids⟩
  · simp only [List.map_cons, List.nodup_cons]; exact ⟨ha, hr.addrs⟩
  · simp only [c2, hr.count, List.length_cons]; push_cast; rfl

theorem grow_spec {H t m es} (hr : Rel H t m es) :
    ∃ t' es', (if t.n > hashsize t.pow then expand H t else (.ok t : Res T)) = .ok t' ∧ Rel H t' m es' ∧ t'.ext = t.ext ∧
      t.pow ≤ t'.pow ∧ (∀ y, y ∉ m.map Prod.snd → t'.h y = t.h y) := by
  split
  · obtain ⟨t', es', r, p, x, hr', f⟩ := expand_spec hr
    exact ⟨t', es', r, hr', x, by omega, f⟩
  · exact ⟨t, es, rfl, hr, rfl, Nat.le_refl _, fun _ _ => rfl⟩

theorem insertObj_spec {H t m es} (hr : Rel H t m es) {a id} (hid : id ∉ m.map Prod.fst) (ha : a ∉ m.map Prod.snd)
    (hc : t.h a = some ⟨id, none⟩) :
    ∃ t' es', insertObj H t a = .ok t' ∧ t'.ext = t.ext ∧ Rel H t' ((id, a) :: m) es' ∧ t.pow ≤ t'.pow := by
  obtain ⟨t1, es1, r1, hr1, x1, p1, f1⟩ := grow_spec hr
  obtain ⟨t2, es2, r2, p2, x2, hr2, f2⟩ := insertObj_core hr1 hid ha (by rw [f1 a ha, hc])
  exact ⟨t2, es2, by rw [insertObj, r1]; simpa using r2, x2.trans x1, hr2, by omega⟩

theorem Rel.setHeap {H t m es} (hr : Rel H t m es) {h' : Heap} (hf : ∀ y ∈ m.map Prod.snd, h' y = t.h y) :
    Rel H { t with h := h' } m es :=
  ⟨⟨fun i hi => (hr.tab.chain i hi).frame (fun e he => hf _ (List.mem_map_of_mem (hr.mem hi he))), hr.tab.place⟩,
    hr.perm, hr.ids, hr.addrs, hr.count⟩

theorem insert_spec {H t m es} (hr : Rel H t m es) {a id} (hid : id ∉ m.map Prod.fst) (ha : a ∉ m.map Prod.snd) :
    ∃ t' es', insert H t a id = .ok t' ∧ t'.ext = t.ext ∧ Rel H t' ((id, a) :: m) es' ∧ t.pow ≤ t'.pow := by
  obtain ⟨t1, es1, r1, hr1, x1, p1, f1⟩ := grow_spec hr
  have hr1' := hr1.setHeap (h' := put t1.h a ⟨id, none⟩) (fun y hy => by
    have : y ≠ a := fun e => ha (e ▸ hy)
    simp [put, this])
  obtain ⟨t2, es2, r2, p2, x2, hr2, f2⟩ := insertObj_core hr1' hid ha (by simp [put])
  refine ⟨t2, es2, by rw [insert, r1]; simpa using r2, x2.trans x1, hr2, ?_⟩
  have : t2.pow = t1.pow := p2
  omega

/-! ## Deletion -/

/-- the predecessor of `a` in a chain in which `a` is not first -/
theorem pred_found {h : Heap} {a : Addr} {id : ObjId} {l2 : List (ObjId × Addr)} :
    ∀ (l1 : List (ObjId × Addr)) (e : ObjId × Addr) (k : Nat) (p : Ptr),
    l1.length + 1 ≤ k → Ch h p (l1 ++ e :: (id, a) :: l2) → a ∉ (l1 ++ [e]).map Prod.snd →
    predChain h a k p = .ok (some e.2)
  | [], e, 0, p, hk, _, _ => by simp at hk
  | [], e, k + 1, p, _, ⟨hp, nx, hx, hc⟩, _ => by
    subst hp
    simp only [predChain, rd, hx, Res.bind_ok]
    have : nx = some a := hc.1
    simp [this]
  | f :: l1, e, 0, p, hk, _, _ => by simp at hk
  | f :: l1, e, k + 1, p, hk, ⟨hp, nx, hx, hc⟩, hn => by
    subst hp
    simp only [predChain, rd, hx, Res.bind_ok]
    have hne : nx ≠ some a := by
      cases l1 with
      | nil => have h1 : nx = some e.2 := hc.1; rw [h1]; intro h2; apply hn; simp at h2; simp [h2]
      | cons g l1 => have h1 : nx = some g.2 := hc.1; rw [h1]; intro h2; apply hn; simp at h2; simp [h2]
    simp only [hne, if_false]
    exact pred_found l1 e k nx (by simpa using hk) hc (fun h => hn (by
      simp only [List.cons_append, List.map_cons, List.mem_cons]; exact Or.inr h))

theorem pred_none {h : Heap} {a : Addr} : ∀ (l : List (ObjId × Addr)) (k : Nat) (p : Ptr),
    l.length ≤ k → Ch h p l → a ∉ l.map Prod.snd → predChain h a k p = .ok none
  | [], k, p, _, hc, _ => by
    have : p = none := hc
    subst this; cases k <;> rfl
  | e :: l, 0, p, hk, _, _ => by simp at hk
  | e :: l, k + 1, p, hk, ⟨hp, nx, hx, hc⟩, hn => by
    subst hp
    simp only [predChain, rd, hx, Res.bind_ok]
    have hne : nx ≠ some a := by
      cases l with
      | nil => have h1 : nx = none := hc; simp [h1]
      | cons g l1 => have h1 : nx = some g.2 := hc.1; rw [h1]; intro h2; apply hn; simp at h2; simp [h2]
    simp only [hne, if_false]
    exact pred_none l k nx (by simpa using hk) hc (fun h => hn (by
      simp only [List.map_cons, List.mem_cons]; exact Or.inr h))

/-- cutting an entry out of a chain in the middle -/
theorem Ch.cut {h : Heap} {e x : ObjId × Addr} {l2} : ∀ {l1 : List (ObjId × Addr)} {p : Ptr}, Ch h p (l1 ++ e :: x :: l2) →
    ((l1 ++ e :: x :: l2).map Prod.snd).Nodup →
    ∃ nx, h x.2 = some ⟨x.1, nx⟩ ∧ h e.2 = some ⟨e.1, some x.2⟩ ∧ Ch (put h e.2 ⟨e.1, nx⟩) p (l1 ++ e :: l2)
  | [], p, ⟨hp, n1, hx, hc, n2, hx2, hc2⟩, hn => by
    subst hc
    refine ⟨n2, hx2, hx, hp, n2, by simp [put], hc2.frame (fun f hf => ?_)⟩
    have : f.2 ≠ e.2 := by
      simp only [List.nil_append, List.map_cons, List.nodup_cons] at hn
      intro h; apply hn.1; rw [← h]; simp only [List.mem_cons]; exact Or.inr (List.mem_map_of_mem hf)
    simp [put, this]
  | f :: l1, p, ⟨hp, n1, hx, hc⟩, hn => by
    simp only [List.cons_append, List.map_cons, List.nodup_cons] at hn
    obtain ⟨nx, h1, h2, h3⟩ := Ch.cut hc hn.2
    refine ⟨nx, h1, h2, hp, n1, ?_, h3⟩
    have : f.2 ≠ e.2 := by intro h; apply hn.1; rw [h]; simp
    simp [put, this, hx]

theorem cut_rel {H t m es} (hr : Rel H t m es) {x : ObjId × Addr} {l1 l2} {i} (hi : i < 2 ^ t.pow) (hes : es i = l1 ++ x :: l2)
    {t' : T} (hp : t'.pow = t.pow) (hn : t'.n = t.n - 1)
    (hch : Ch t'.h (t'.tab i) (l1 ++ l2)) (hot : ∀ j < 2 ^ t.pow, j ≠ i → Ch t'.h (t'.tab j) (es j)) :
    Rel H t' (m.filter (fun e => e ≠ x)) (upd es i (l1 ++ l2)) := by
  have hnm : m.Nodup := List.Nodup.of_map _ hr.addrs
  have hxm : x ∈ m := hr.mem hi (by rw [hes]; simp)
  have hfe : m.filter (fun e => e ≠ x) = m.erase x := by
    rw [hnm.erase_eq_filter]; congr 1; funext e; by_cases h : e = x <;> simp [h]
  refine ⟨⟨?_, ?_⟩, ?_, ?_, ?_, ?_⟩
  · intro j hj
    rw [hp] at hj
    by_cases hji : j = i
    · subst hji; simpa [upd] using hch
    · simpa [upd, hji] using hot j hj hji
  · intro j hj e he
    rw [hp] at hj ⊢
    by_cases hji : j = i
    · subst hji
      simp only [upd, if_true] at he
      exact hr.tab.place j hj e (by rw [hes]; simp at he ⊢; tauto)
    · simp only [upd, hji, if_false] at he
      exact hr.tab.place j hj e he
  · rw [hfe]
    have h1 := all_split_self (t := t) es hi
    have h2 : (all t' (upd es i (l1 ++ l2))).Perm ((l1 ++ l2) ++ all t (upd es i [])) := by
      have := all_split (t := t) es hi (l1 ++ l2)
      simp only [all, hp] at this ⊢
      exact this
    refine List.Perm.trans ?_ h2.symm
    have h3 : m.Perm (x :: ((l1 ++ l2) ++ all t (upd es i []))) := by
      refine (hr.perm.trans h1).trans ?_
      rw [hes]
      simp only [List.append_assoc, List.cons_append]
      exact List.perm_middle
    have := h3.erase x
    simpa using this
  · exact (hr.ids.sublist ((List.filter_sublist).map _))
  · exact (hr.addrs.sublist ((List.filter_sublist).map _))
  · rw [hfe, List.length_erase_of_mem hxm, hn, hr.count]
    have : 0 < m.length := List.length_pos_of_mem hxm
    omega

theorem all_disj {H t m es} (hr : Rel H t m es) {i j} (hi : i < 2 ^ t.pow) (hj : j < 2 ^ t.pow) (hij : j ≠ i)
    {e f} (he : e ∈ es i) (hf : f ∈ es j) : f.2 ≠ e.2 := by
  intro h
  have := List.inj_on_of_nodup_map hr.addrs (hr.mem hj hf) (hr.mem hi he) h
  subst this
  exact hij ((hr.tab.place j hj _ hf).symm.trans (hr.tab.place i hi _ he))

theorem Rel.bucket_nodup {H t m es} (hr : Rel H t m es) {i} (hi : i < 2 ^ t.pow) : ((es i).map Prod.snd).Nodup := by
  have h1 := ((hr.perm.trans (all_split_self (t := t) es hi)).map Prod.snd).nodup_iff.1 hr.addrs
  rw [List.map_append] at h1
  exact (List.nodup_append.1 h1).1

theorem release_frame {t : T} {a : Addr} {p : Ptr} {l} (hc : Ch t.h p l) (ha : a ∉ l.map Prod.snd) :
    Ch (release t a).h p l := by
  unfold release
  split
  · exact hc
  · refine hc.frame (fun e he => ?_)
    have : e.2 ≠ a := fun h => ha (h ▸ List.mem_map_of_mem he)
    simp [free, this]

@[simp] theorem release_pow (t : T) (a) : (release t a).pow = t.pow := by unfold release; split <;> rfl
@[simp] theorem release_n (t : T) (a) : (release t a).n = t.n := by unfold release; split <;> rfl
@[simp] theorem release_tab (t : T) (a) : (release t a).tab = t.tab := by unfold release; split <;> rfl
@[simp] theorem release_ext (t : T) (a) : (release t a).ext = t.ext := by unfold release; split <;> rfl

/-- removing the first entry of a bucket -/
theorem cut_first {H t m es} (hr : Rel H t m es) {x : ObjId × Addr} {l} {i} (hi : i < 2 ^ t.pow) (hes : es i = x :: l) :
    ∃ nx, t.h x.2 = some ⟨x.1, nx⟩ ∧ t.tab i = some x.2 ∧
      Rel H (release { t with tab := setTab t.tab i nx, n := t.n - 1 } x.2) (m.filter (fun e => e ≠ x)) (upd es i l) := by
  have hc := hr.tab.chain i hi
  rw [hes] at hc
  obtain ⟨hp, nx, hx, hc⟩ := hc
  have hn := hr.bucket_nodup hi
  rw [hes] at hn
  simp only [List.map_cons, List.nodup_cons] at hn
  refine ⟨nx, hx, hp, ?_⟩
  refine cut_rel (l1 := []) (l2 := l) hr hi (by simpa using hes) (by simp) (by simp) ?_ ?_
  · refine release_frame ?_ hn.1
    simpa [setTab] using hc
  · intro j hj hji
    refine release_frame ?_ ?_
    · simpa [setTab, hji] using hr.tab.chain j hj
    · intro hm
      obtain ⟨f, hf, hfe⟩ := List.mem_map.1 hm
      exact all_disj hr hi hj hji (e := x) (by rw [hes]; simp) hf hfe

/-- removing a later entry of a bucket -/
theorem cut_later {H t m es} (hr : Rel H t m es) {e x : ObjId × Addr} {l1 l2} {i} (hi : i < 2 ^ t.pow)
    (hes : es i = l1 ++ e :: x :: l2) :
    ∃ nx, t.h x.2 = some ⟨x.1, nx⟩ ∧ t.h e.2 = some ⟨e.1, some x.2⟩ ∧ t.tab i ≠ some x.2 ∧
      Rel H (release { t with h := put t.h e.2 ⟨e.1, nx⟩, n := t.n - 1 } x.2) (m.filter (fun y => y ≠ x)) (upd es i (l1 ++ e :: l2)) := by
  have hc := hr.tab.chain i hi
  have hn := hr.bucket_nodup hi
  rw [hes] at hc hn
  obtain ⟨nx, h1, h2, h3⟩ := Ch.cut hc hn
  have hxe : x.2 ∉ (l1 ++ e :: l2).map Prod.snd := by
    have hp : (l1 ++ e :: x :: l2).Perm (x :: (l1 ++ e :: l2)) := by
      have : l1 ++ e :: x :: l2 = (l1 ++ [e]) ++ x :: l2 := by simp
      rw [this]; refine List.perm_middle.trans ?_; simp
    have := (hp.map Prod.snd).nodup_iff.1 hn
    simp only [List.map_cons, List.nodup_cons] at this
    exact this.1
  refine ⟨nx, h1, h2, ?_, ?_⟩
  · intro h
    apply hxe
    cases l1 with
    | nil => have := hc.1; rw [h] at this; simp at this; simp [this]
    | cons f l1 => have := hc.1; rw [h] at this; simp at this; simp [this]
  · refine cut_rel (l1 := l1 ++ [e]) (l2 := l2) hr hi (by simpa using hes) (by simp) (by simp) ?_ ?_ |> fun h => by simpa using h
    · refine release_frame ?_ (by simpa using hxe)
      simpa using h3
    · intro j hj hji
      refine release_frame ?_ ?_
      · rw [release_tab]
        refine (hr.tab.chain j hj).frame (fun f hf => ?_)
        have := all_disj hr hi hj hji (e := e) (by rw [hes]; simp) hf
        simp [put, this]
      · intro hm
        obtain ⟨f, hf, hfe⟩ := List.mem_map.1 hm
        exact all_disj hr hi hj hji (e := x) (by rw [hes]; simp) hf hfe

/-- first, later or absent -/
theorem split_bucket {l : List (ObjId × Addr)} {x} (h : x ∈ l) : (∃ l2, l = x :: l2) ∨ (∃ l1 e l2, l = l1 ++ e :: x :: l2) := by
  obtain ⟨l1, l2, rfl⟩ := List.append_of_mem h
  rcases List.eq_nil_or_concat l1 with rfl | ⟨l0, e, rfl⟩
  · exact Or.inl ⟨l2, rfl⟩
  · refine Or.inr ⟨l0, e, l2, by simp⟩

theorem filter_addr {m : Map} (hn : (m.map Prod.snd).Nodup) {x} (hx : x ∈ m) :
    m.filter (fun e => e.2 ≠ x.2) = m.filter (fun e => e ≠ x) := by
  apply List.filter_congr
  intro e he
  by_cases h : e = x
  · simp [h]
  · have : e.2 ≠ x.2 := fun h' => h (List.inj_on_of_nodup_map hn he hx h')
    simp [h, this]

theorem filter_id {m : Map} (hn : (m.map Prod.fst).Nodup) {x} (hx : x ∈ m) :
    m.filter (fun e => e.1 ≠ x.1) = m.filter (fun e => e ≠ x) := by
  apply List.filter_congr
  intro e he
  by_cases h : e = x
  · simp [h]
  · have : e.1 ≠ x.1 := fun h' => h (List.inj_on_of_nodup_map hn he hx h')
    simp [h, this]

theorem later_len {H t m es} (hr : Rel H t m es) {e x : ObjId × Addr} {l1 l2} {i} (hi : i < 2 ^ t.pow)
    (hes : es i = l1 ++ e :: x :: l2) : l1.length + 2 ≤ t.n.toNat := by
  have := hr.len hi
  rw [hes] at this; simp at this; omega

theorem later_notin {H t m es} (hr : Rel H t m es) {e x : ObjId × Addr} {l1 l2} {i} (hi : i < 2 ^ t.pow)
    (hes : es i = l1 ++ e :: x :: l2) : x.2 ∉ (l1 ++ [e]).map Prod.snd := by
  have hn := hr.bucket_nodup hi
  rw [hes] at hn
  have : l1 ++ e :: x :: l2 = (l1 ++ [e]) ++ x :: l2 := by simp
  rw [this, List.map_append] at hn
  intro h
  exact (List.nodup_append.1 hn).2.2 _ h x.2 (by simp) rfl

theorem delete_spec {H t m es} (hr : Rel H t m es) {x : ObjId × Addr} (hx : x ∈ m) :
    ∃ t' es', delete H t x.2 = .ok t' ∧ Rel H t' (m.filter (fun e => e.2 ≠ x.2)) es' ∧ t'.pow = t.pow ∧ t'.ext = t.ext := by
  rw [filter_addr hr.addrs hx]
  have hb := hr.bucket hx
  have hi := hv_lt t (H x.1)
  rcases split_bucket hb with ⟨l2, hes⟩ | ⟨l1, e, l2, hes⟩
  · obtain ⟨nx, h1, h2, h3⟩ := cut_first hr hi hes
    refine ⟨_, _, ?_, h3, by simp, by simp⟩
    simp [delete, rd, h1, hv_eq, h2]
  · obtain ⟨nx, h1, h2, h3, h4⟩ := cut_later hr hi hes
    refine ⟨_, _, ?_, h4, by simp, by simp⟩
    have hc := hr.tab.chain _ hi
    rw [hes] at hc
    have hp := pred_found l1 e t.n.toNat _ (by have := later_len hr hi hes; omega) hc (later_notin hr hi hes)
    simp [delete, rd, h1, hv_eq, h3, hp, setNext, h2]

theorem tryDelete_spec {H t m es} (hr : Rel H t m es) {x : ObjId × Addr} (hx : x ∈ m) :
    ∃ t' es', tryDelete H t x.2 = .ok (true, t') ∧ Rel H t' (m.filter (fun e => e.2 ≠ x.2)) es' ∧ t'.pow = t.pow ∧ t'.ext = t.ext := by
  rw [filter_addr hr.addrs hx]
  have hb := hr.bucket hx
  have hi := hv_lt t (H x.1)
  rcases split_bucket hb with ⟨l2, hes⟩ | ⟨l1, e, l2, hes⟩
  · obtain ⟨nx, h1, h2, h3⟩ := cut_first hr hi hes
    refine ⟨_, _, ?_, h3, by simp, by simp⟩
    simp [tryDelete, rd, h1, hv_eq, h2]
  · obtain ⟨nx, h1, h2, h3, h4⟩ := cut_later hr hi hes
    refine ⟨_, _, ?_, h4, by simp, by simp⟩
    have hc := hr.tab.chain _ hi
    rw [hes] at hc
    have hp := pred_found l1 e t.n.toNat _ (by have := later_len hr hi hes; omega) hc (later_notin hr hi hes)
    simp [tryDelete, rd, h1, hv_eq, h3, hp, setNext, h2]

/-- an object that is not in the table -/
theorem tryDelete_absent {H t m es} (hr : Rel H t m es) {a : Addr} {c : Cell} (hc : t.h a = some c) (ha : a ∉ m.map Prod.snd) :
    tryDelete H t a = .ok (false, t) := by
  have hi := hv_lt t (H c.id)
  have hch := hr.tab.chain _ hi
  have hn : a ∉ (es (H c.id % 2 ^ t.pow)).map Prod.snd := by
    intro h
    obtain ⟨e, he, rfl⟩ := List.mem_map.1 h
    exact ha (List.mem_map_of_mem (hr.mem hi he))
  have hne : t.tab (H c.id % 2 ^ t.pow) ≠ some a := by
    intro h
    cases hes : es (H c.id % 2 ^ t.pow) with
    | nil => rw [hes, h] at hch; simp [Ch] at hch
    | cons e l => rw [hes, h] at hch; have := hch.1; rw [hes] at hn; simp at this; simp [this] at hn
  simp [tryDelete, rd, hc, hv_eq, hne, pred_none _ _ _ (hr.len hi) hch hn]

theorem id_found {h : Heap} {x : ObjId × Addr} {l2 : List (ObjId × Addr)} :
    ∀ (l1 : List (ObjId × Addr)) (e : ObjId × Addr) (k : Nat) (p : Ptr),
    l1.length + 1 ≤ k → Ch h p (l1 ++ e :: x :: l2) → (∀ f ∈ (l1 ++ [e]).tail, f.1 ≠ x.1) →
    idChain h x.1 k p = .ok (some e.2, some x.2)
  | [], e, 0, p, hk, _, _ => by simp at hk
  | [], e, k + 1, p, _, ⟨hp, nx, hx, hc⟩, _ => by
    subst hp
    obtain ⟨hp2, n2, hx2, _⟩ := hc
    subst hp2
    simp [idChain, rd, hx, hx2]
  | f :: l1, e, 0, p, hk, _, _ => by simp at hk
  | f :: l1, e, k + 1, p, hk, ⟨hp, nx, hx, hc⟩, hn => by
    subst hp
    have hn2 : ∀ g ∈ l1 ++ [e], g.1 ≠ x.1 := fun g hg => hn g (by simpa using hg)
    have hrec := id_found l1 e k nx (by simpa using hk) hc (fun g hg => hn2 g (List.mem_of_mem_tail hg))
    cases l1 with
    | nil =>
      obtain ⟨hp2, n2, hx2, _⟩ := hc
      subst hp2
      have := hn2 e (by simp)
      simp [idChain, rd, hx, hx2, this]
      exact hrec
    | cons g l1 =>
      obtain ⟨hp2, n2, hx2, _⟩ := hc
      subst hp2
      have := hn2 g (by simp)
      simp [idChain, rd, hx, hx2, this]
      exact hrec

theorem id_none {h : Heap} {id : ObjId} : ∀ (l : List (ObjId × Addr)) (e : ObjId × Addr) (k : Nat) (p : Ptr),
    l.length + 1 ≤ k → Ch h p (e :: l) → (∀ f ∈ l, f.1 ≠ id) → ∃ q, idChain h id k p = .ok (q, none)
  | l, e, 0, p, hk, _, _ => by simp at hk
  | [], e, k + 1, p, _, ⟨hp, nx, hx, hc⟩, _ => by
    subst hp
    have : nx = none := hc
    subst this
    exact ⟨some e.2, by simp [idChain, rd, hx]⟩
  | f :: l, e, k + 1, p, hk, ⟨hp, nx, hx, hc⟩, hn => by
    subst hp
    obtain ⟨q, hq⟩ := id_none l f k nx (by simpa using hk) hc (fun g hg => hn g (by simp [hg]))
    obtain ⟨hp2, n2, hx2, _⟩ := hc
    subst hp2
    have := hn f (by simp)
    exact ⟨q, by simp [idChain, rd, hx, hx2, this, hq]⟩

theorem Rel.bucket_ids {H t m es} (hr : Rel H t m es) {i} (hi : i < 2 ^ t.pow) : ((es i).map Prod.fst).Nodup := by
  have h1 := ((hr.perm.trans (all_split_self (t := t) es hi)).map Prod.fst).nodup_iff.1 hr.ids
  rw [List.map_append] at h1
  exact (List.nodup_append.1 h1).1

theorem deleteObjId_spec {H t m es} (hr : Rel H t m es) {x : ObjId × Addr} (hx : x ∈ m) :
    ∃ t' es', deleteObjId H t x.1 = .ok (true, t') ∧ Rel H t' (m.filter (fun e => e.1 ≠ x.1)) es' ∧ t'.pow = t.pow ∧ t'.ext = t.ext := by
  rw [filter_id hr.ids hx]
  have hb := hr.bucket hx
  have hi := hv_lt t (H x.1)
  have hset : ∀ (t : T) a, ({ release t a with n := (release t a).n - 1 } : T) = release { t with n := t.n - 1 } a := by
    intro t a; unfold release; split <;> rfl
  rcases split_bucket hb with ⟨l2, hes⟩ | ⟨l1, e, l2, hes⟩
  · obtain ⟨nx, h1, h2, h3⟩ := cut_first hr hi hes
    refine ⟨_, _, ?_, h3, by simp, by simp⟩
    simp only [deleteObjId, hv_eq, h2, rd, h1, Res.bind_ok, if_true, hset]
  · obtain ⟨nx, h1, h2, h3, h4⟩ := cut_later hr hi hes
    refine ⟨_, _, ?_, h4, by simp, by simp⟩
    have hc := hr.tab.chain _ hi
    have hid := hr.bucket_ids hi
    rw [hes] at hc hid
    have hid' : ∀ f ∈ l1 ++ [e], f.1 ≠ x.1 := by
      have h5 : l1 ++ e :: x :: l2 = (l1 ++ [e]) ++ x :: l2 := by simp
      rw [h5, List.map_append] at hid
      intro f hf
      exact (List.nodup_append.1 hid).2.2 _ (List.mem_map_of_mem hf) x.1 (by simp)
    have hp := id_found l1 e t.n.toNat _ (by have := later_len hr hi hes; omega) hc (fun f hf => hid' f (List.mem_of_mem_tail hf))
    obtain ⟨g, hg, ng, hgx, htab⟩ : ∃ g ∈ l1 ++ [e], ∃ ng, t.h g.2 = some ⟨g.1, ng⟩ ∧ t.tab (H x.1 % 2 ^ t.pow) = some g.2 := by
      cases l1 with
      | nil => exact ⟨e, by simp, _, hc.2.choose_spec.1, hc.1⟩
      | cons f l1 => exact ⟨f, by simp, _, hc.2.choose_spec.1, hc.1⟩
    have hgid := hid' g hg
    rw [htab] at hp
    simp only [deleteObjId, hv_eq, htab, rd, hgx, Res.bind_ok, hgid, if_false, hp, h1, setNext, h2, hset]

theorem deleteObjId_absent {H t m es} (hr : Rel H t m es) {id : ObjId} (hid : id ∉ m.map Prod.fst) :
    deleteObjId H t id = .ok (false, t) := by
  have hi := hv_lt t (H id)
  have hc := hr.tab.chain _ hi
  have hne : ∀ e ∈ es (H id % 2 ^ t.pow), e.1 ≠ id := fun e he h => hid (h ▸ List.mem_map_of_mem (hr.mem hi he))
  have hl := hr.len hi
  cases hes : es (H id % 2 ^ t.pow) with
  | nil =>
    rw [hes] at hc
    have : t.tab (H id % 2 ^ t.pow) = none := hc
    simp [deleteObjId, hv_eq, this]
  | cons e l =>
    rw [hes] at hc hne hl
    obtain ⟨q, hq⟩ := id_none (id := id) l e t.n.toNat _ (by simpa using hl) hc (fun f hf => hne f (by simp [hf]))
    obtain ⟨hp, nx, hx, _⟩ := hc
    rw [hp] at hq
    have := hne e (by simp)
    simp [deleteObjId, hv_eq, hp, rd, hx, this, hq]

/-! ## Visiting and random choice -/

theorem visitChain_spec {h : Heap} : ∀ (l : List (ObjId × Addr)) (k p), l.length ≤ k → Ch h p l →
    visitChain h k p = .ok (l.map Prod.snd)
  | [], k, p, _, hc => by
    have : p = none := hc
    subst this; cases k <;> rfl
  | e :: l, 0, p, hk, _ => by simp at hk
  | e :: l, k + 1, p, hk, ⟨hp, nx, hx, hc⟩ => by
    subst hp
    simp [visitChain, rd, hx, visitChain_spec l k nx (by simpa using hk) hc]

theorem visitLoop_spec {H t m es} (hr : Rel H t m es) : ∀ (is : List Nat), (∀ i ∈ is, i < 2 ^ t.pow) →
    visitLoop t is = .ok ((is.flatMap es).map Prod.snd)
  | [], _ => rfl
  | i :: is, h => by
    have hi := h i (by simp)
    simp [visitLoop, visitChain_spec _ _ _ (hr.len hi) (hr.tab.chain i hi),
      visitLoop_spec hr is (fun j hj => h j (by simp [hj]))]

theorem visit_spec {H t m es} (hr : Rel H t m es) : ∃ l, visit t = .ok l ∧ l.Perm (m.map Prod.snd) := by
  refine ⟨_, by rw [visit, hashsize_eq]; exact visitLoop_spec hr _ (fun i hi => by simpa using hi), ?_⟩
  exact (hr.perm.map Prod.snd).symm

theorem randObj_mem {H t m es} (hr : Rel H t m es) : ∀ (vs : List Nat) a, randObj t vs = .ok a → a ∈ m.map Prod.snd
  | [], a, h => by simp [randObj] at h
  | v :: vs, a, h => by
    have hv : v &&& hashmask t.pow = v % 2 ^ t.pow := hv_eq (fun x => x) v t.pow
    rw [randObj, hv] at h
    have hi := hv_lt t v
    have hc := hr.tab.chain _ hi
    cases htab : t.tab (v % 2 ^ t.pow) with
    | none => rw [htab] at h; exact randObj_mem hr vs a h
    | some b =>
      rw [htab] at h hc
      have hba : b = a := by simpa using h
      subst hba
      cases hes : es (v % 2 ^ t.pow) with
      | nil => rw [hes] at hc; simp [Ch] at hc
      | cons e l =>
        rw [hes] at hc
        have : b = e.2 := by simpa using hc.1
        subst this
        exact List.mem_map_of_mem (hr.mem hi (by rw [hes]; simp))

theorem randObj_stops {H t m es} (hr : Rel H t m es) {x : ObjId × Addr} (hx : x ∈ m) : ∀ (vs : List Nat),
    (∃ v ∈ vs, v % 2 ^ t.pow = H x.1 % 2 ^ t.pow) → ∃ a, randObj t vs = .ok a
  | [], h => by simp at h
  | v :: vs, h => by
    have hv : v &&& hashmask t.pow = v % 2 ^ t.pow := hv_eq (fun x => x) v t.pow
    rw [randObj, hv]
    cases htab : t.tab (v % 2 ^ t.pow) with
    | some b => exact ⟨b, rfl⟩
    | none =>
      simp only
      refine randObj_stops hr hx vs ?_
      obtain ⟨w, hw, hwe⟩ := h
      rcases List.mem_cons.1 hw with rfl | hw
      · exfalso
        have hc := hr.tab.chain _ (hv_lt t (H x.1))
        have hb := hr.bucket hx
        rw [hwe] at htab
        rw [htab] at hc
        cases hes : es (H x.1 % 2 ^ t.pow) with
        | nil => rw [hes] at hb; simp at hb
        | cons e l => rw [hes] at hc; simp [Ch] at hc
      · exact ⟨w, hw, hwe⟩

/-! ## All calls -/

theorem create_rel (H : ObjId → Nat) (h pow ext) : Rel H (create h pow ext) [] (fun _ => []) :=
  ⟨⟨fun _ _ => rfl, fun _ _ e he => by simp at he⟩, by simp [all], by simp, by simp, rfl⟩

theorem exec_spec {H t m es} (hr : Rel H t m es) (op : HOp) (hop : op.allowed m) :
    ∃ t' es', op.exec H t = .ok (op.answer m, t') ∧ Rel H t' (op.effect m) es' := by
  cases op with
  | insert a id =>
    obtain ⟨t', es', r, _, hr', _⟩ := insert_spec hr hop.1 hop.2
    exact ⟨t', es', by simp [HOp.exec, r, HOp.answer], hr'⟩
  | delete a =>
    obtain ⟨x, hx, rfl⟩ := List.mem_map.1 hop
    obtain ⟨t', es', r, hr', _⟩ := delete_spec hr hx
    exact ⟨t', es', by simp [HOp.exec, r, HOp.answer], hr'⟩
  | tryDelete a =>
    obtain ⟨x, hx, rfl⟩ := List.mem_map.1 hop
    obtain ⟨t', es', r, hr', _⟩ := tryDelete_spec hr hx
    exact ⟨t', es', by simp [HOp.exec, r, HOp.answer], hr'⟩
  | deleteId id =>
    by_cases h : id ∈ m.map Prod.fst
    · obtain ⟨x, hx, rfl⟩ := List.mem_map.1 h
      obtain ⟨t', es', r, hr', _⟩ := deleteObjId_spec hr hx
      refine ⟨t', es', ?_, hr'⟩
      simp only [HOp.exec, r, Res.bind_ok, HOp.answer, h, if_true]
    · refine ⟨t, es, ?_, ?_⟩
      · simp only [HOp.exec, deleteObjId_absent hr h, Res.bind_ok, HOp.answer, h, if_false]; rfl
      · have : HOp.effect m (.deleteId id) = m := by
          simp only [HOp.effect]
          apply List.filter_eq_self.2
          intro e he
          simp only [decide_eq_true_eq]
          exact fun hh => h (hh ▸ List.mem_map_of_mem he)
        rw [this]; exact hr
  | find id => exact ⟨t, es, by simp [HOp.exec, find_spec hr, HOp.answer], hr⟩

theorem execAll_spec {H} : ∀ (ops : List HOp) {t m es}, Rel H t m es → HOp.allAllowed m ops →
    ∃ t' es', HOp.execAll H t ops = .ok (HOp.answers m ops, t') ∧ Rel H t' (ops.foldl HOp.effect m) es'
  | [], t, m, es, hr, _ => ⟨t, es, rfl, hr⟩
  | op :: ops, t, m, es, hr, ⟨h1, h2⟩ => by
    obtain ⟨t1, es1, r1, hr1⟩ := exec_spec hr op h1
    obtain ⟨t2, es2, r2, hr2⟩ := execAll_spec ops hr1 h2
    exact ⟨t2, es2, by simp [HOp.execAll, r1, r2, HOp.answers], hr2⟩

end Verif.HashTable
