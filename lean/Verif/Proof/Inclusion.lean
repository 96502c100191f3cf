import Verif.Spec.Textbook
import Verif.Spec.Optimal
import Verif.Spec.LargerCache
import Mathlib.Data.List.Infix
import Mathlib.Data.List.Nodup
/-!
# Inclusion for LRU with objects of different sizes, and for the optimum
-/

namespace Verif.Inclusion
open Verif Verif.Spec

theorem bytes_prefix {md : Nat} {a b : Contents} (h : a <+: b) : bytes md a ≤ bytes md b := by
  obtain ⟨c, rfl⟩ := h
  simp [bytes]

theorem room_prefix (C md need : Nat) : ∀ (n : Nat) (l : Contents), makeRoom lru C md need n l <+: l
  | 0, l => List.prefix_refl l
  | n + 1, l => by
    unfold makeRoom
    split
    · exact List.prefix_refl l
    · exact (room_prefix C md need n _).trans (List.dropLast_prefix l)

theorem prefix_dropLast {a b : Contents} (h : a <+: b) (hl : a.length < b.length) : a <+: b.dropLast := by
  obtain ⟨c, rfl⟩ := h
  have hc : c ≠ [] := by
    intro hc; subst hc; simp at hl
  rw [List.dropLast_append_of_ne_nil hc]
  exact List.prefix_append ..

theorem room_mono {C C' md need : Nat} (hC : C ≤ C') : ∀ (n : Nat) (a b : Contents), b.length = n → a <+: b →
    makeRoom lru C md need a.length a <+: makeRoom lru C' md need n b
  | 0, a, b, hb, h => by
    have : b = [] := List.length_eq_zero_iff.1 hb
    subst this
    have : a = [] := List.prefix_nil.1 h
    subst this
    exact List.prefix_refl _
  | n + 1, a, b, hb, h => by
    conv => rhs; unfold makeRoom
    split
    · exact (room_prefix C md need _ a).trans h
    · rename_i hnot
      have hd : (lru.evict b).length = n := by
        show b.dropLast.length = n
        rw [List.length_dropLast, hb]; rfl
      by_cases hl : a.length < b.length
      · exact room_mono hC n a _ hd (prefix_dropLast h hl)
      · have hab : a = b := h.eq_of_length (Nat.le_antisymm h.length_le (by omega))
        subst hab
        rw [hb]
        conv => lhs; unfold makeRoom
        rw [if_neg]
        · have := room_mono (md := md) (need := need) hC n (lru.evict a) (lru.evict a) hd (List.prefix_refl _)
          rw [hd] at this
          exact this
        · intro hh
          exact hnot (Nat.le_trans hh hC)

/-- the larger cache's objects are distinct and have their sizes -/
structure Sound (sz : ObjId → Nat) (b : Contents) : Prop where
  nodup : b.ids.Nodup
  size : ∀ x ∈ b, x.2 = sz x.1 % u32

theorem Sound.sublist {sz : ObjId → Nat} {a b : Contents} (h : Sound sz b) (hs : List.Sublist a b) : Sound sz a :=
  ⟨h.nodup.sublist (hs.map _), fun x hx => h.size x (hs.subset hx)⟩

theorem Sound.cons {sz : ObjId → Nat} {a : Contents} (h : Sound sz a) {id : ObjId} (hn : id ∉ a.ids) : Sound sz ((id, sz id % u32) :: a) :=
  ⟨List.nodup_cons.2 ⟨hn, h.nodup⟩, fun x hx => by
    rcases List.mem_cons.1 hx with he | he
    · subst he; rfl
    · exact h.size x he⟩

theorem filter_ne_of_notMem {a : Contents} {id : ObjId} (h : id ∉ a.ids) : a.filter (fun x => x.1 ≠ id) = a :=
  List.filter_eq_self.2 (fun x hx => by
    have : x.1 ≠ id := fun he => h (he ▸ List.mem_map_of_mem hx)
    simpa using this)

theorem filter_eq_of_notMem {a : Contents} {id : ObjId} (h : id ∉ a.ids) : a.filter (fun x => x.1 = id) = [] :=
  List.filter_eq_nil_iff.2 (fun x hx => by
    have : x.1 ≠ id := fun he => h (he ▸ List.mem_map_of_mem hx)
    simpa using this)

theorem filter_eq_of_mem {sz : ObjId → Nat} : ∀ {b : Contents} {id : ObjId}, Sound sz b → id ∈ b.ids → b.filter (fun x => x.1 = id) = [(id, sz id % u32)]
  | [], id, _, h => by cases h
  | x :: b, id, hs, h => by
    have hn := List.nodup_cons.1 hs.nodup
    by_cases hx : x.1 = id
    · have hx2 := hs.size x (List.mem_cons_self ..)
      subst hx
      rw [List.filter_cons_of_pos (by simp), filter_eq_of_notMem hn.1, ← hx2]
    · rw [List.filter_cons_of_neg (by simpa using hx)]
      refine filter_eq_of_mem (hs.sublist (List.sublist_cons_self ..)) ?_
      rcases List.mem_cons.1 h with he | he
      · exact absurd he.symm hx
      · exact he

theorem toFront_eq {sz : ObjId → Nat} {b : Contents} (h : Sound sz b) {id : ObjId} (hm : id ∈ b.ids) : toFront b id = (id, sz id % u32) :: b.filter (fun x => x.1 ≠ id) := by
  unfold toFront
  rw [filter_eq_of_mem h hm]; rfl

theorem Sound.toFront {sz : ObjId → Nat} {b : Contents} (h : Sound sz b) {id : ObjId} (hm : id ∈ b.ids) : Sound sz (toFront b id) := by
  rw [toFront_eq h hm]
  refine (h.sublist List.filter_sublist).cons (fun hh => ?_)
  obtain ⟨x, hx, he⟩ := List.mem_map.1 hh
  have := (List.mem_filter.1 hx).2
  simp [he] at this

theorem ids_prefix {a b : Contents} (h : a <+: b) {id : ObjId} (hm : id ∈ a.ids) : id ∈ b.ids := by
  obtain ⟨c, rfl⟩ := h
  simp only [Contents.ids, List.map_append, List.mem_append]
  exact Or.inl hm

theorem step_mono {cs cs' md : Nat} {sz : ObjId → Nat} (hC : cs ≤ cs') {a b : Contents} (h : a <+: b) (hb : Sound sz b) {op : Op} (ho : FitsSmaller cs md sz op) :
    ((tstep lru cs md ⟨a, .none⟩ op).1 = true → (tstep lru cs' md ⟨b, .none⟩ op).1 = true) ∧
    (tstep lru cs md ⟨a, .none⟩ op).2.pol <+: (tstep lru cs' md ⟨b, .none⟩ op).2.pol ∧ Sound sz (tstep lru cs' md ⟨b, .none⟩ op).2.pol ∧
    (tstep lru cs md ⟨a, .none⟩ op).2.adm = .none ∧ (tstep lru cs' md ⟨b, .none⟩ op).2.adm = .none := by
  cases op with
  | get r =>
    obtain ⟨h1, h2, h3⟩ := ho
    have hsz : r.size % u32 = sz r.id % u32 := by rw [h1]
    have ea : holds lru ⟨a, .none⟩ r.id = decide (r.id ∈ a.ids) := rfl
    have eb : holds lru ⟨b, .none⟩ r.id = decide (r.id ∈ b.ids) := rfl
    simp only [tstep, tget, ea, eb, decide_eq_true_eq, Adm.admit, true_and]
    rw [if_pos h2, if_pos (Nat.le_trans h2 hC)]
    by_cases hbm : r.id ∈ b.ids
    · rw [if_pos hbm]
      by_cases ham : r.id ∈ a.ids
      · rw [if_pos ham]
        refine ⟨fun _ => rfl, ?_, hb.toFront hbm, rfl, rfl⟩
        show toFront a r.id <+: toFront b r.id
        rw [toFront_eq hb hbm, toFront_eq (hb.sublist h.sublist) ham]
        obtain ⟨c, rfl⟩ := h
        rw [List.filter_append]
        exact ⟨c.filter (fun x => x.1 ≠ r.id), by simp⟩
      · rw [if_neg ham]
        refine ⟨(fun hh => by cases hh), ?_, hb.toFront hbm, rfl, rfl⟩
        show (r.id, r.size % u32) :: makeRoom lru cs md (r.size + md) a.length a <+: toFront b r.id
        rw [toFront_eq hb hbm, hsz]
        have hp := room_prefix cs md (r.size + md) a.length a
        obtain ⟨c, rfl⟩ := h
        rw [List.filter_append, filter_ne_of_notMem ham]
        obtain ⟨d, hd⟩ := hp
        refine ⟨d ++ c.filter (fun x => x.1 ≠ r.id), ?_⟩
        rw [List.cons_append, ← List.append_assoc, hd]
    · have ham : r.id ∉ a.ids := fun hh => hbm (ids_prefix h hh)
      rw [if_neg hbm, if_neg ham]
      have hroom := room_mono (md := md) (need := r.size + md) hC b.length a b rfl h
      refine ⟨(fun hh => by cases hh), ?_, ?_, rfl, rfl⟩
      · obtain ⟨d, hd⟩ := hroom
        refine ⟨d, ?_⟩
        show (r.id, r.size % u32) :: makeRoom lru cs md (r.size + md) a.length a ++ d = (r.id, r.size % u32) :: makeRoom lru cs' md (r.size + md) b.length b
        rw [List.cons_append, hd]
      · show Sound sz ((r.id, r.size % u32) :: makeRoom lru cs' md (r.size + md) b.length b)
        rw [hsz]
        have hp := room_prefix cs' md (r.size + md) b.length b
        exact (hb.sublist hp.sublist).cons (fun hh => hbm (ids_prefix hp hh))
  | find r upd =>
    change upd = false at ho
    subst ho
    simp only [tstep, holds, decide_eq_true_eq, Bool.false_eq_true, false_and, if_false]
    exact ⟨fun hh => ids_prefix h hh, h, hb, trivial, trivial⟩
  | remove id =>
    simp only [tstep, holds, decide_eq_true_eq]
    have hfil : ∀ (l : Contents), (if id ∈ (lru.contents l).ids then (⟨lru.remove l id, .none⟩ : TState Contents) else ⟨l, .none⟩) = ⟨l.filter (fun x => x.1 ≠ id), .none⟩ := by
      intro l
      split
      · rfl
      · rename_i hn
        exact congrArg (fun z => (⟨z, .none⟩ : TState Contents)) (filter_ne_of_notMem hn).symm
    have ea := hfil a
    have eb := hfil b
    refine ⟨fun hh => ids_prefix h hh, ?_, ?_, ?_, ?_⟩
    · have e1 := congrArg TState.pol ea
      have e2 := congrArg TState.pol eb
      show TState.pol (if id ∈ (lru.contents a).ids then (⟨lru.remove a id, .none⟩ : TState Contents) else ⟨a, .none⟩) <+: TState.pol (if id ∈ (lru.contents b).ids then (⟨lru.remove b id, .none⟩ : TState Contents) else ⟨b, .none⟩)
      rw [e1, e2]
      obtain ⟨c, rfl⟩ := h
      rw [List.filter_append]
      exact List.prefix_append ..
    · have e2 := congrArg TState.pol eb
      show Sound sz (TState.pol (if id ∈ (lru.contents b).ids then (⟨lru.remove b id, .none⟩ : TState Contents) else ⟨b, .none⟩))
      rw [e2]
      exact hb.sublist List.filter_sublist
    · exact congrArg TState.adm ea
    · exact congrArg TState.adm eb
  | evict r =>
    have hev : ∀ (C : Nat) (l : Contents), tstep lru C md ⟨l, .none⟩ (.evict r) = (decide (l ≠ []), ⟨l.dropLast, .none⟩) := by
      intro C l
      show (if l = [] then (false, (⟨l, .none⟩ : TState Contents)) else (true, ⟨l.dropLast, .none⟩)) = _
      by_cases hl : l = []
      · subst hl; rfl
      · rw [if_neg hl]; simp [hl]
    rw [hev, hev]
    refine ⟨?_, ?_, hb.sublist (List.dropLast_sublist b), rfl, rfl⟩
    · intro hh
      have hne : a ≠ [] := by simpa using hh
      have : b ≠ [] := by
        rintro rfl
        exact hne (List.prefix_nil.1 h)
      simpa using this
    · show a.dropLast <+: b.dropLast
      by_cases hl : a.length < b.length
      · exact (List.dropLast_prefix a).trans (prefix_dropLast h hl)
      · have hab : a = b := h.eq_of_length (Nat.le_antisymm h.length_le (by omega))
        subst hab
        exact List.prefix_refl _
  | insert r => exact ho.elim

theorem eta {t : TState Contents} (h : t.adm = .none) : t = ⟨t.pol, .none⟩ := by
  cases t; cases h; rfl

theorem run_mono {cs cs' md : Nat} {sz : ObjId → Nat} (hC : cs ≤ cs') : ∀ (ops : List Op) (a b : Contents), a <+: b → Sound sz b → (∀ op ∈ ops, FitsSmaller cs md sz op) →
    List.Forall₂ (fun x y => x = true → y = true) (trun lru cs md ⟨a, .none⟩ ops).1 (trun lru cs' md ⟨b, .none⟩ ops).1 ∧
    (trun lru cs md ⟨a, .none⟩ ops).2.pol <+: (trun lru cs' md ⟨b, .none⟩ ops).2.pol
  | [], a, b, h, _, _ => ⟨List.Forall₂.nil, h⟩
  | op :: ops, a, b, h, hb, ho => by
    obtain ⟨h1, h2, h3, h4, h5⟩ := step_mono hC h hb (ho op (List.mem_cons_self ..))
    have ea : (tstep lru cs md ⟨a, .none⟩ op).2 = ⟨(tstep lru cs md ⟨a, .none⟩ op).2.pol, .none⟩ := eta h4
    have eb : (tstep lru cs' md ⟨b, .none⟩ op).2 = ⟨(tstep lru cs' md ⟨b, .none⟩ op).2.pol, .none⟩ := eta h5
    have ih := run_mono hC ops _ _ h2 h3 (fun o hh => ho o (List.mem_cons_of_mem _ hh))
    rw [← ea, ← eb] at ih
    exact ⟨List.Forall₂.cons h1 ih.1, ih.2⟩

/-- More room does not forbid a play. -/
theorem play_mono {k k' : Nat} (hk : k ≤ k') {c : Finset ObjId} {trace : List ObjId} {h : Nat} (hp : Play k c trace h) : Play k' c trace h := by
  induction hp with
  | done c => exact .done c
  | hit h1 h2 _ ih => exact .hit h1 h2 ih
  | miss h1 h2 h3 h4 _ ih => exact .miss h1 h2 h3 (h4.trans hk) ih

end Verif.Inclusion

/-! ## MRU with objects of one size -/

namespace Verif.Inclusion
open Verif Verif.Spec

theorem bytes_uniform {md z : Nat} : ∀ {l : Contents}, (∀ x ∈ l, x.2 = z) → bytes md l = l.length * (z + md)
  | [], _ => by simp [bytes]
  | x :: l, h => by
    have ih := bytes_uniform (md := md) (l := l) (fun y hy => h y (List.mem_cons_of_mem _ hy))
    have hx := h x (List.mem_cons_self ..)
    unfold bytes at ih ⊢
    rw [List.map_cons, List.sum_cons, ih, hx, List.length_cons, Nat.add_mul, Nat.one_mul, Nat.add_comm]

theorem room_uniform {C md z : Nat} (hu : 0 < z + md) {l : Contents} (hl : ∀ x ∈ l, x.2 = z) :
    bytes md l + (z + md) ≤ C ↔ l.length < C / (z + md) := by
  rw [bytes_uniform hl, ← Nat.succ_mul, Nat.lt_iff_add_one_le, Nat.le_div_iff_mul_le hu]

theorem room_mru {C md z : Nat} (hu : 0 < z + md) (hk : 0 < C / (z + md)) {l : Contents} (hl : ∀ x ∈ l, x.2 = z) (hle : l.length ≤ C / (z + md)) :
    makeRoom mru C md (z + md) l.length l = if l.length < C / (z + md) then l else l.tail := by
  cases l with
  | nil =>
    exact (if_pos hk).symm
  | cons x l =>
    show (if bytes md (x :: l) + (z + md) ≤ C then x :: l else makeRoom mru C md (z + md) l.length l) = _
    by_cases h : (x :: l).length < C / (z + md)
    · rw [if_pos ((room_uniform hu hl).2 h), if_pos h]
    · rw [if_neg (fun hh => h ((room_uniform hu hl).1 hh)), if_neg h]
      have hl' : ∀ y ∈ l, y.2 = z := fun y hy => hl y (List.mem_cons_of_mem _ hy)
      have hfit : bytes md l + (z + md) ≤ C := (room_uniform hu hl').2 (by
        rw [List.length_cons] at hle; omega)
      show makeRoom mru C md (z + md) l.length l = l
      cases hn : l.length with
      | zero => rfl
      | succ n => unfold makeRoom; exact if_pos hfit

structure MruRel (k k' z : Nat) (a b : Contents) : Prop where
  sub : List.Sublist a b
  sound : Sound (fun _ => z) b
  lena : a.length = min k b.length
  lenb : b.length ≤ k'

theorem toFront_length (l : Contents) (id : ObjId) : (toFront l id).length = l.length := by
  unfold toFront
  induction l with
  | nil => rfl
  | cons x l ih =>
    by_cases h : x.1 = id
    · rw [List.filter_cons_of_pos (by simpa using h), List.filter_cons_of_neg (by simpa using h)]
      simp only [List.length_append, List.length_cons] at ih ⊢
      omega
    · rw [List.filter_cons_of_neg (by simpa using h), List.filter_cons_of_pos (by simpa using h)]
      simp only [List.length_append, List.length_cons] at ih ⊢
      omega

theorem mru_step {C C' md z : Nat} (hC : C ≤ C') (hu : 0 < z + md) (hz : z < u32) (hk : 0 < C / (z + md)) {a b : Contents}
    (h : MruRel (C / (z + md)) (C' / (z + md)) z a b) {r : Req} (hr : r.size = z) :
    ((tget mru C md ⟨a, .none⟩ r).1 = true → (tget mru C' md ⟨b, .none⟩ r).1 = true) ∧
    MruRel (C / (z + md)) (C' / (z + md)) z (tget mru C md ⟨a, .none⟩ r).2.pol (tget mru C' md ⟨b, .none⟩ r).2.pol ∧
    (tget mru C md ⟨a, .none⟩ r).2.adm = .none ∧ (tget mru C' md ⟨b, .none⟩ r).2.adm = .none := by
  have hkk : C / (z + md) ≤ C' / (z + md) := Nat.div_le_div_right hC
  have hfit : z + md ≤ C := by
    have := (Nat.le_div_iff_mul_le hu).1 hk
    omega
  have hzm : z % u32 = z := Nat.mod_eq_of_lt hz
  have hsb : ∀ x ∈ b, x.2 = z := fun x hx => (h.sound.size x hx).trans hzm
  have hsa : ∀ x ∈ a, x.2 = z := fun x hx => hsb x (h.sub.subset hx)
  have ha := h.sound.sublist h.sub
  have ea : holds mru ⟨a, .none⟩ r.id = decide (r.id ∈ a.ids) := rfl
  have eb : holds mru ⟨b, .none⟩ r.id = decide (r.id ∈ b.ids) := rfl
  have hlena := h.lena
  have hlenb := h.lenb
  simp only [tget, ea, eb, decide_eq_true_eq, Adm.admit, true_and, hr]
  rw [if_pos hfit, if_pos (Nat.le_trans hfit hC)]
  have hma : makeRoom mru C md (z + md) a.length a = if a.length < C / (z + md) then a else a.tail := room_mru hu hk hsa (by rw [hlena]; exact Nat.min_le_left ..)
  have hmb : makeRoom mru C' md (z + md) b.length b = if b.length < C' / (z + md) then b else b.tail := room_mru hu (Nat.lt_of_lt_of_le hk hkk) hsb hlenb
  by_cases hbm : r.id ∈ b.ids
  · rw [if_pos hbm]
    by_cases ham : r.id ∈ a.ids
    · rw [if_pos ham]
      refine ⟨fun _ => rfl, ⟨?_, h.sound.toFront hbm, ?_, ?_⟩, rfl, rfl⟩
      · show List.Sublist (toFront a r.id) (toFront b r.id)
        rw [toFront_eq h.sound hbm, toFront_eq ha ham]
        exact (h.sub.filter _).cons_cons _
      · show (toFront a r.id).length = min _ (toFront b r.id).length
        rw [toFront_length, toFront_length]; exact hlena
      · show (toFront b r.id).length ≤ _
        rw [toFront_length]; exact hlenb
    · rw [if_neg ham]
      have hlt : C / (z + md) < b.length := by
        apply Nat.lt_of_not_le
        intro hle
        rw [Nat.min_eq_right hle] at hlena
        exact ham (h.sub.eq_of_length hlena ▸ hbm)
      rw [Nat.min_eq_left (Nat.le_of_lt hlt)] at hlena
      rw [if_neg (by omega)] at hma
      refine ⟨(fun hh => by cases hh), ⟨?_, h.sound.toFront hbm, ?_, ?_⟩, rfl, rfl⟩
      · show List.Sublist ((r.id, r.size % u32) :: makeRoom mru C md (z + md) a.length a) (toFront b r.id)
        rw [toFront_eq h.sound hbm, hr]
        refine List.Sublist.cons_cons _ ?_
        rw [hma]
        refine (List.tail_sublist a).trans ?_
        have := h.sub.filter (fun x => x.1 ≠ r.id)
        rw [filter_ne_of_notMem ham] at this
        exact this
      · show ((r.id, r.size % u32) :: makeRoom mru C md (z + md) a.length a).length = min _ (toFront b r.id).length
        rw [hma, toFront_length, List.length_cons, List.length_tail, Nat.min_eq_left (Nat.le_of_lt hlt)]
        omega
      · show (toFront b r.id).length ≤ _
        rw [toFront_length]; exact hlenb
  · have ham : r.id ∉ a.ids := fun hh => hbm ((h.sub.map Prod.fst).subset hh)
    rw [if_neg hbm, if_neg ham]
    refine ⟨(fun hh => by cases hh), ⟨?_, ?_, ?_, ?_⟩, rfl, rfl⟩
    · show List.Sublist ((r.id, r.size % u32) :: makeRoom mru C md (z + md) a.length a) ((r.id, r.size % u32) :: makeRoom mru C' md (z + md) b.length b)
      rw [hma, hmb]
      refine List.Sublist.cons_cons _ ?_
      by_cases hb' : b.length < C' / (z + md)
      · rw [if_pos hb']
        split
        · exact h.sub
        · exact (List.tail_sublist a).trans h.sub
      · rw [if_neg hb', if_neg (by omega)]
        exact h.sub.tail
    · show Sound _ ((r.id, r.size % u32) :: makeRoom mru C' md (z + md) b.length b)
      rw [hmb, hr]
      have hsub : List.Sublist (if b.length < C' / (z + md) then b else b.tail) b := by
        split
        · exact List.Sublist.refl b
        · exact List.tail_sublist b
      exact (h.sound.sublist hsub).cons (id := r.id) (fun hh => hbm ((hsub.map Prod.fst).subset hh))
    · show ((r.id, r.size % u32) :: makeRoom mru C md (z + md) a.length a).length = min _ ((r.id, r.size % u32) :: makeRoom mru C' md (z + md) b.length b).length
      rw [hma, hmb, List.length_cons, List.length_cons]
      split <;> split <;> (try simp only [List.length_tail]) <;> omega
    · show ((r.id, r.size % u32) :: makeRoom mru C' md (z + md) b.length b).length ≤ _
      rw [hmb, List.length_cons]
      split <;> (try simp only [List.length_tail]) <;> omega

theorem mru_run {C C' md z : Nat} (hC : C ≤ C') (hu : 0 < z + md) (hz : z < u32) (hk : 0 < C / (z + md)) : ∀ (rs : List Req) (a b : Contents),
    MruRel (C / (z + md)) (C' / (z + md)) z a b → (∀ r ∈ rs, r.size = z) →
    List.Forall₂ (fun x y => x = true → y = true) (trun mru C md ⟨a, .none⟩ (rs.map .get)).1 (trun mru C' md ⟨b, .none⟩ (rs.map .get)).1 ∧
    List.Sublist (trun mru C md ⟨a, .none⟩ (rs.map .get)).2.pol (trun mru C' md ⟨b, .none⟩ (rs.map .get)).2.pol
  | [], a, b, h, _ => ⟨List.Forall₂.nil, h.sub⟩
  | r :: rs, a, b, h, hr => by
    obtain ⟨h1, h2, h4, h5⟩ := mru_step hC hu hz hk h (hr r (List.mem_cons_self ..))
    have ih := mru_run hC hu hz hk rs _ _ h2 (fun o hh => hr o (List.mem_cons_of_mem _ hh))
    rw [← eta h4, ← eta h5] at ih
    exact ⟨List.Forall₂.cons h1 ih.1, ih.2⟩

end Verif.Inclusion
