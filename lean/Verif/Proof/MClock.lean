import Verif.Algo.MClock
import Verif.Spec.MultiHand
import Verif.Proof.QRep
import Verif.Proof.SingleBase

namespace Verif.MClock
open Verif Spec

/-! ## Neighbours in a list without duplicates -/

theorem prevOf_get {q : List ObjId} (hn : q.Nodup) {p : Nat} (h : p + 1 < q.length) : prevOf q (q[p + 1]) = some q[p] := by
  induction q generalizing p with
  | nil => simp at h
  | cons a q ih =>
    cases q with
    | nil => simp at h
    | cons b q =>
      cases p with
      | zero => simp [prevOf]
      | succ p =>
        have hn' := (List.nodup_cons.mp hn).2
        have hlt : p + 1 < (b :: q).length := by simp at h ⊢; omega
        have hne : b ≠ (b :: q)[p + 1] := by
          intro e
          have : (0 : Nat) = p + 1 := (List.Nodup.getElem_inj_iff hn' (i := 0) (j := p + 1) (hi := by simp) (hj := hlt)).mp (by simpa using e)
          omega
        show (if b = (b :: q)[p + 1] then some a else prevOf (b :: q) ((b :: q)[p + 1])) = _
        rw [if_neg hne, ih hn' hlt]
        rfl

theorem prevOf_head {q : List ObjId} {x : ObjId} (hn : (x :: q).Nodup) : prevOf (x :: q) x = none := by
  have key : ∀ (q : List ObjId) (y : ObjId), x ∉ q → prevOf (y :: q) x = none := by
    intro q
    induction q with
    | nil => intro y _; rfl
    | cons b q ih =>
      intro y h
      simp only [List.mem_cons, not_or] at h
      show (if b = x then some y else prevOf (b :: q) x) = none
      rw [if_neg (fun e => h.1 e.symm)]
      exact ih b h.2
  exact key q x (List.nodup_cons.mp hn).1

theorem nextOf_get {q : List ObjId} (hn : q.Nodup) {p : Nat} (h : p < q.length) : nextOf q (q[p]) = q[p + 1]? := by
  induction q generalizing p with
  | nil => simp at h
  | cons a q ih =>
    cases p with
    | zero => simp [nextOf, List.head?_eq_getElem?]
    | succ p =>
      have hlt : p < q.length := by simpa using h
      have hne : a ≠ q[p] := fun e => (List.nodup_cons.mp hn).1 (e ▸ List.getElem_mem hlt)
      show (if a = q[p] then q.head? else nextOf q (q[p])) = _
      rw [if_neg hne, ih (List.nodup_cons.mp hn).2 hlt]
      rfl

/-- The pointer to the object at a position. -/
def P (l : List (Obj Unit)) (p : Nat) : Ptr := Ptr.of ((l.map (·.id))[p]?)

theorem P_lt {l : List (Obj Unit)} {p : Nat} (h : p < l.length) : P l p = .obj l[p].id := by
  unfold P; rw [List.getElem?_eq_getElem (by simpa using h)]; simp [Ptr.of]

theorem P_cons (o : Obj Unit) (l : List (Obj Unit)) (p : Nat) : P (o :: l) (p + 1) = P l p := by
  unfold P; simp

theorem P_ge {l : List (Obj Unit)} {p : Nat} (h : l.length ≤ p) : P l p = .null := by
  unfold P; rw [List.getElem?_eq_none (by simpa using h)]; rfl

theorem P_inj {l : List (Obj Unit)} (hn : (l.map (·.id)).Nodup) {p v : Nat} (hv : v < l.length) (h : P l p = .obj l[v].id) : p = v := by
  by_cases hp : p < l.length
  · rw [P_lt hp] at h
    have e : l[p].id = l[v].id := Ptr.obj.inj h
    exact (List.Nodup.getElem_inj_iff hn (i := p) (j := v) (hi := by simpa using hp) (hj := by simpa using hv)).mp (by simpa using e)
  · rw [P_ge (by omega)] at h; cases h

theorem P_mod (l : List (Obj Unit)) (id : ObjId) (f : Obj Unit → Obj Unit) (hf : ∀ o, (f o).id = o.id) (p : Nat) : P (modL id f l) p = P l p := by
  unfold P; rw [modL_ids _ _ hf]

/-- Moving towards the head after an insertion. -/
theorem movePrev_P {o : Obj Unit} {l : List (Obj Unit)} (hn : ((o :: l).map (·.id)).Nodup) {p : Nat} (h : p < l.length) :
    movePrev ((o :: l).map (·.id)) (P l p) = .ok (P (o :: l) p) := by
  rw [P_lt h, P_lt (l := o :: l) (by simp; omega)]
  show Except.ok (Ptr.of (prevOf ((o :: l).map (·.id)) l[p].id)) = _
  have := prevOf_get hn (p := p) (by simpa using h)
  simp only [List.map_cons, List.getElem_cons_succ, List.getElem_map] at this ⊢
  rw [this]
  simp only [Ptr.of]
  congr 2
  cases p <;> simp

/-! ## Hypotheses -/

/-- Objects of size `u`, and hands at different positions when the cache is full. -/
structure Fits (K : Conf) (cs u : Nat) : Prop where
  pos : 0 < u
  small : u < u32
  two : 2 ≤ K.first.length
  head : (K.first.head?.map (fun f => f (cs / u))) = some 0
  tail : ∀ f, K.first.getLast? = some f → cs / u ≤ f (cs / u)
  apart : (MultiHand.places (cs / u) 0 K.first).Pairwise (· < ·)

theorem places_last (n : Nat) : ∀ (fs : List (Nat → Nat)) (i : Nat), fs ≠ [] → ∃ as, MultiHand.places n i fs = as ++ [n - 1] := by
  intro fs
  induction fs with
  | nil => intro i h; exact absurd rfl h
  | cons f fs ih =>
    intro i _
    cases fs with
    | nil => exact ⟨[], rfl⟩
    | cons g fs =>
      obtain ⟨as, h⟩ := ih (max i (f n) + 1) (by simp)
      exact ⟨max i (f n) :: as, by show _ :: MultiHand.places n _ _ = _; rw [h]; rfl⟩

theorem places_length (n : Nat) : ∀ (fs : List (Nat → Nat)) (i : Nat), (MultiHand.places n i fs).length = fs.length := by
  intro fs
  induction fs with
  | nil => intro i; rfl
  | cons f fs ih =>
    intro i
    cases fs with
    | nil => rfl
    | cons g fs => show (MultiHand.places n _ (g :: fs)).length + 1 = _; rw [ih]; rfl

theorem lt_last {as : List Nat} {x : Nat} (h : (as ++ [x]).Pairwise (· < ·)) : ∀ p ∈ as, p < x := by
  intro p hp
  exact (List.pairwise_append.mp h).2.2 p hp x (by simp)

theorem Fits.bound {K : Conf} {cs u : Nat} (h : Fits K cs u) : 2 ≤ cs / u ∧ ∀ p ∈ MultiHand.places (cs / u) 0 K.first, p < cs / u := by
  have hne : K.first ≠ [] := by have := h.two; intro e; rw [e] at this; simp at this
  obtain ⟨as, e⟩ := places_last (cs / u) K.first 0 hne
  have ha := h.apart
  have hl := places_length (cs / u) K.first 0
  rw [e] at ha hl
  have hlt := lt_last ha
  have hN : 2 ≤ cs / u := by
    cases as with
    | nil => have := h.two; simp at hl; omega
    | cons a as => have := hlt a (by simp); omega
  refine ⟨hN, fun p hp => ?_⟩
  rw [e] at hp
  rcases List.mem_append.mp hp with hp | hp
  · have := hlt p hp; omega
  · simp at hp; omega

theorem Fits.head0 {K : Conf} {cs u : Nat} (h : Fits K cs u) : ∃ ps, MultiHand.places (cs / u) 0 K.first = 0 :: ps := by
  have h2 := h.two
  have h0 := h.head
  match hf : K.first with
  | [] => rw [hf] at h2; simp at h2
  | [_] => rw [hf] at h2; simp at h2
  | f :: g :: fs =>
    rw [hf] at h0
    simp only [List.head?_cons, Option.map_some, Option.some.injEq] at h0
    refine ⟨MultiHand.places (cs / u) (max 0 (f (cs / u)) + 1) (g :: fs), ?_⟩
    show max 0 (f (cs / u)) :: MultiHand.places (cs / u) (max 0 (f (cs / u)) + 1) (g :: fs) = _
    rw [h0]; rfl

/-! ## Setting the hands -/

theorem place_spec {q : List ObjId} {n : Nat} (hq : q.length = n) :
    ∀ (m i : Nat) (fs : List (Nat → Nat)), m = n - i → i ≤ n → fs ≠ [] → (∀ f, fs.getLast? = some f → n ≤ f n) →
      (MultiHand.places n i fs).Pairwise (· < ·) → 0 < n →
      ∃ f, place n i (q.drop i) fs = .ok ((MultiHand.places n i fs).dropLast.map (fun p => Ptr.of q[p]?), [f]) := by
  intro m
  induction m with
  | zero =>
    intro i fs hm hi hne hlast hp hn
    have hd : q.drop i = [] := List.drop_eq_nil_of_le (by omega)
    rw [hd]
    match fs, hne, hp with
    | [f], _, _ => exact ⟨f, rfl⟩
    | f :: g :: fs, _, hp =>
      exfalso
      obtain ⟨as, e⟩ := places_last n (g :: fs) (max i (f n) + 1) (by simp)
      have e' : MultiHand.places n i (f :: g :: fs) = max i (f n) :: (as ++ [n - 1]) := by rw [← e]; rfl
      rw [e'] at hp
      have := (List.pairwise_cons.mp hp).1 (n - 1) (by simp)
      omega
  | succ m ih =>
    intro i fs hm hi hne hlast hp hn
    have hlt : i < q.length := by omega
    rw [List.drop_eq_getElem_cons hlt]
    match fs, hne, hlast, hp with
    | [f], _, hlast, hp =>
      have hf := hlast f rfl
      obtain ⟨f', h⟩ := ih (i + 1) [f] (by omega) (by omega) (by simp) hlast hp hn
      refine ⟨f', ?_⟩
      show (if f n ≤ i then _ else place n (i + 1) (q.drop (i + 1)) [f]) = _
      rw [if_neg (by omega), h]
      rfl
    | f :: g :: fs, _, hlast, hp =>
      by_cases hfi : f n ≤ i
      · have hmax : max i (f n) = i := by omega
        have e : MultiHand.places n i (f :: g :: fs) = i :: MultiHand.places n (i + 1) (g :: fs) := by
          show max i (f n) :: MultiHand.places n (max i (f n) + 1) (g :: fs) = _
          rw [hmax]
        rw [e] at hp
        obtain ⟨f', h⟩ := ih (i + 1) (g :: fs) (by omega) (by omega) (by simp) (by intro f'' hh; exact hlast f'' (by simpa using hh)) (List.pairwise_cons.mp hp).2 hn
        refine ⟨f', ?_⟩
        show (if f n ≤ i then place n (i + 1) (q.drop (i + 1)) (g :: fs) >>= fun x => Except.ok (Ptr.obj q[i] :: x.1, x.2) else _) = _
        rw [if_pos hfi, h, e]
        obtain ⟨as, e2⟩ := places_last n (g :: fs) (i + 1) (by simp)
        rw [e2]
        simp only [Res.bind_ok]
        have : (i :: (as ++ [n - 1])).dropLast = i :: as := by
          rw [← List.cons_append, List.dropLast_concat]
        rw [this, List.dropLast_concat, List.map_cons, List.getElem?_eq_getElem hlt]
        rfl
      · have e : MultiHand.places n i (f :: g :: fs) = MultiHand.places n (i + 1) (f :: g :: fs) := by
          show max i (f n) :: MultiHand.places n (max i (f n) + 1) (g :: fs) = max (i + 1) (f n) :: MultiHand.places n (max (i + 1) (f n) + 1) (g :: fs)
          rw [show max i (f n) = max (i + 1) (f n) by omega]
        rw [e] at hp ⊢
        obtain ⟨f', h⟩ := ih (i + 1) (f :: g :: fs) (by omega) (by omega) (by simp) hlast hp hn
        refine ⟨f', ?_⟩
        show (if f n ≤ i then _ else place n (i + 1) (q.drop (i + 1)) (f :: g :: fs)) = _
        rw [if_neg hfi, h]

/-! ## Scores -/

def items (l : List (Obj Unit)) : List MultiHand.Item := l.map (fun o => ⟨o.id, o.miscNext⟩)

theorem window_spec {cs : Nat} {s : State} {l : List (Obj Unit)} (h : Rep cs 0 s.q l) :
    ∀ (c p : Nat), p < l.length → window s c (P l p) = .ok (((l.take (p + 1)).reverse.take c).map (·.miscNext)) := by
  intro c
  induction c with
  | zero => intro p _; simp [window]
  | succ c ih =>
    intro p hp
    rw [P_lt hp]
    have hl : s.q.base.lookup l[p].id = some l[p] := h.lookup_mem (List.getElem_mem hp)
    have hrev : (l.take (p + 1)).reverse = l[p] :: (l.take p).reverse := by
      rw [← List.take_append_getElem hp, List.reverse_append]; rfl
    have hn : s.q.q.Nodup := by rw [h.q]; exact h.nodup
    show (match s.q.base.lookup l[p].id with
      | none => (Except.error Fault.useAfterFree : Res (List Int))
      | some o => window s c (Ptr.of (prevOf s.q.q l[p].id)) >>= fun w => .ok (o.miscNext :: w)) = _
    rw [hl]
    simp only
    rw [hrev, List.take_succ_cons, List.map_cons]
    cases p with
    | zero =>
      have : prevOf s.q.q l[0].id = none := by
        cases l with
        | nil => simp at hp
        | cons a t =>
          rw [h.q] at hn ⊢
          exact prevOf_head hn
      rw [this]
      cases c with
      | zero => rfl
      | succ c => simp [window, Ptr.of]
    | succ p =>
      have : Ptr.of (prevOf s.q.q l[p + 1].id) = P l p := by
        rw [P_lt (by omega)]
        have := prevOf_get hn (p := p) (by rw [h.q]; simpa using hp)
        simp only [h.q, List.getElem_map] at this
        rw [h.q, this]; rfl
      rw [this, ih p (by omega)]
      rfl

theorem best_spec {K : Conf} {cs : Nat} {s : State} {l : List (Obj Unit)} (h : Rep cs 0 s.q l) (M : MultiHand.Conf)
    (hc : M.consider = K.consider) (hs : M.score = K.score) :
    ∀ (ps : List Nat) (i : Nat), (∀ p ∈ ps, p < l.length) → ps ≠ [] →
      ∃ as v bs, ps = as ++ v :: bs ∧ MultiHand.pick (MultiHand.scoreAt M s.q.base.nReq (items l)) ps = some v ∧
        best K s i (ps.map (P l)) = .ok (some (i + as.length, P l v, MultiHand.scoreAt M s.q.base.nReq (items l) v)) := by
  have hsc : ∀ p, p < l.length → window s K.consider (P l p) = .ok (((l.take (p + 1)).reverse.take K.consider).map (·.miscNext)) := fun p hp => window_spec h _ p hp
  have hsv : ∀ p, K.score s.q.base.nReq (((l.take (p + 1)).reverse.take K.consider).map (·.miscNext)) = MultiHand.scoreAt M s.q.base.nReq (items l) p := by
    intro p
    unfold MultiHand.scoreAt items
    rw [hc, hs, ← List.map_take, ← List.map_reverse, ← List.map_take, List.map_map]
    rfl
  intro ps
  induction ps with
  | nil => intro i _ hne; exact absurd rfl hne
  | cons p ps ih =>
    intro i hlt _
    have hp := hlt p (by simp)
    cases ps with
    | nil =>
      refine ⟨[], p, [], rfl, rfl, ?_⟩
      show ((Except.ok none : Res _) >>= fun b => window s K.consider (P l p) >>= fun w => _) = _
      rw [hsc p hp]
      simp only [Res.bind_ok, hsv]
      rfl
    | cons p' ps =>
      obtain ⟨as, v, bs, e1, e2, e3⟩ := ih (i + 1) (fun x hx => hlt x (by simp [hx])) (by simp)
      have hb : best K s i ((p :: p' :: ps).map (P l)) =
          if MultiHand.scoreAt M s.q.base.nReq (items l) p > MultiHand.scoreAt M s.q.base.nReq (items l) v then
            .ok (some (i, P l p, MultiHand.scoreAt M s.q.base.nReq (items l) p))
          else .ok (some (i + 1 + as.length, P l v, MultiHand.scoreAt M s.q.base.nReq (items l) v)) := by
        show (best K s (i + 1) ((p' :: ps).map (P l)) >>= fun b => window s K.consider (P l p) >>= fun w => _) = _
        rw [e3, hsc p hp]
        simp only [Res.bind_ok, hsv]
      have hpk : MultiHand.pick (MultiHand.scoreAt M s.q.base.nReq (items l)) (p :: p' :: ps) =
          if MultiHand.scoreAt M s.q.base.nReq (items l) p > MultiHand.scoreAt M s.q.base.nReq (items l) v then some p else some v := by
        show (match MultiHand.pick _ (p' :: ps) with | none => some p | some b => _) = _
        rw [e2]
      by_cases hgt : MultiHand.scoreAt M s.q.base.nReq (items l) p > MultiHand.scoreAt M s.q.base.nReq (items l) v
      · rw [if_pos hgt] at hb hpk
        exact ⟨[], p, p' :: ps, rfl, hpk, hb⟩
      · rw [if_neg hgt] at hb hpk
        refine ⟨p :: as, v, bs, by rw [e1]; rfl, hpk, ?_⟩
        rw [hb, List.length_cons, show i + 1 + as.length = i + (as.length + 1) by omega]

/-! ## The invariant -/

/-- Before the first eviction; after an insertion into the full cache; and between an eviction and the insertion it makes room for. -/
inductive Phase (K : Conf) (N : Nat) (s : State) (l : List (Obj Unit)) : Prop
  | start : s.hands = K.first.map (fun _ => Ptr.null) → s.resets = 0 → l.length ≤ N → Phase K N s l
  | full : l.length = N → s.hands = (MultiHand.places N 0 K.first).map (P l) → Phase K N s l
  | mid (as : List Nat) (v : Nat) (bs : List Nat) : MultiHand.places N 0 K.first = as ++ v :: bs → l.length + 1 = N →
      s.hands = as.map (P l) ++ P l v :: bs.map (fun p => P l (p - 1)) → s.last = some as.length → Phase K N s l

structure Inv (K : Conf) (cs u : Nat) (s : State) (l : List (Obj Unit)) : Prop where
  rep : Rep cs 0 s.q l
  uni : ∀ o ∈ l, o.size = u
  phase : Phase K (cs / u) s l

theorem Inv.init {K : Conf} {cs u : Nat} (adm : Adm) : Inv K cs u (init K cs adm 0) [] :=
  ⟨Rep.init cs 0 adm, by simp, .start rfl rfl (by simp)⟩

theorem Inv.len {K : Conf} {cs u : Nat} {s : State} {l : List (Obj Unit)} (h : Inv K cs u s l) : l.length ≤ cs / u := by
  cases h.phase with
  | start _ _ h => exact h
  | full h => omega
  | mid _ _ _ _ h => omega

theorem charge_uni {u : Nat} {l : List (Obj Unit)} (h : ∀ o ∈ l, o.size = u) : charge 0 (cont l) = l.length * u := by
  induction l with
  | nil => simp [charge]
  | cons a l ih =>
    have := ih (fun o ho => h o (by simp [ho]))
    have ha := h a (by simp)
    simp only [cont_cons, charge, List.length_cons, Nat.add_mul, this, ha]
    omega

theorem Inv.occ {K : Conf} {cs u : Nat} {s : State} {l : List (Obj Unit)} (h : Inv K cs u s l) : s.q.base.occ = ((l.length * u : Nat) : Int) := by
  rw [h.rep.occ, charge_uni h.uni]

theorem Inv.frame {K : Conf} {cs u : Nat} {s : State} {l : List (Obj Unit)} (h : Inv K cs u s l) (n : Nat) (a : Adm) :
    Inv K cs u { s with q := { s.q with base := { s.q.base with nReq := n, adm := a } } } l := by
  refine ⟨h.rep.frame n a, h.uni, ?_⟩
  cases h.phase with
  | start h1 h2 h3 => exact .start h1 h2 h3
  | full h1 h2 => exact .full h1 h2
  | mid as v bs h1 h2 h3 h4 => exact .mid as v bs h1 h2 h3 h4

theorem Inv.touch {K : Conf} {cs u : Nat} {s : State} {l : List (Obj Unit)} (h : Inv K cs u s l) (r : Req) :
    Inv K cs u { s with q := s.q.modify r.id (touch r) } (modL r.id (touch r) l) := by
  have hP : ∀ p, P (modL r.id (Verif.touch r) l) p = P l p := fun p => P_mod l r.id (Verif.touch r) (fun _ => rfl) p
  have hP' : P (modL r.id (Verif.touch r) l) = P l := funext hP
  have hlen : (modL r.id (Verif.touch r) l).length = l.length := by simp [modL]
  refine ⟨h.rep.modify _ _ (fun _ => rfl) (fun _ => rfl), ?_, ?_⟩
  · intro o ho
    simp only [modL, List.mem_map] at ho
    obtain ⟨o', ho', rfl⟩ := ho
    have := h.uni o' ho'
    split <;> simpa [Verif.touch] using this
  · cases h.phase with
    | start h1 h2 h3 => exact .start h1 h2 (by omega)
    | full h1 h2 => exact .full (by omega) (by rw [hP']; exact h2)
    | mid as v bs h1 h2 h3 h4 => exact .mid as v bs h1 (by omega) (by rw [hP']; exact h3) h4

/-! ## Insertion -/

theorem shift_succ (q : List ObjId) (k : Nat) (p : Ptr) (ps : List Ptr) :
    shift q (k + 1) (p :: ps) = movePrev q p >>= fun x => shift q k ps >>= fun xs => .ok (x :: xs) := by
  cases ps <;> rfl

theorem shift_spec {o : Obj Unit} {l : List (Obj Unit)} (hn : ((o :: l).map (·.id)).Nodup) (v : Nat) (bs : List Nat)
    (hb : ∀ p ∈ bs, v < p) (hv : if bs = [] then v = l.length else v < l.length) :
    ∀ as : List Nat, (∀ p ∈ as, p < l.length) →
      shift ((o :: l).map (·.id)) as.length (as.map (P l) ++ P l v :: bs.map (fun p => P l (p - 1))) = .ok ((as ++ v :: bs).map (P (o :: l))) := by
  have hmap : bs.map (fun p => P l (p - 1)) = bs.map (P (o :: l)) := by
    apply List.map_congr_left
    intro p hp
    have := hb p hp
    obtain ⟨p', rfl⟩ : ∃ p', p = p' + 1 := ⟨p - 1, by omega⟩
    rw [P_cons]; rfl
  intro as
  induction as with
  | nil =>
    intro _
    cases bs with
    | nil =>
      rw [if_pos rfl] at hv
      show Except.ok [Ptr.of ((o :: l).map (·.id)).getLast?] = Except.ok [P (o :: l) v]
      have : Ptr.of ((o :: l).map (·.id)).getLast? = P (o :: l) v := by
        unfold P
        rw [List.getLast?_eq_getElem?, List.length_map, List.length_cons, hv]; rfl
      rw [this]
    | cons b bs =>
      rw [if_neg (by simp)] at hv
      rw [hmap]
      show movePrev ((o :: l).map (·.id)) (P l v) >>= (fun x => Except.ok (x :: P (o :: l) b :: bs.map (P (o :: l)))) = _
      rw [movePrev_P hn hv]
      rfl
  | cons a as ih =>
    intro has
    have h1 := movePrev_P hn (has a (by simp))
    have h2 := ih (fun p hp => has p (by simp [hp]))
    show shift ((o :: l).map (·.id)) (as.length + 1) (P l a :: (as.map (P l) ++ P l v :: bs.map (fun p => P l (p - 1)))) = _
    rw [shift_succ, h1, h2]
    rfl

theorem insert_spec {K : Conf} {cs u : Nat} (hf : Fits K cs u) {s : State} {l : List (Obj Unit)} (h : Inv K cs u s l) {r : Req}
    (hid : r.id ∉ l.map (·.id)) (hsz : r.size = u) (hroom : l.length < cs / u) :
    ∃ s', insert s r = .ok s' ∧ Inv K cs u s' (Obj.ofReq () r :: l) ∧ s'.q.base.nReq = s.q.base.nReq ∧ s'.q.base.adm = s.q.base.adm := by
  have hok : SizeOk 0 r := by unfold SizeOk; rw [hsz, Nat.mod_eq_of_lt hf.small]; exact hf.small
  obtain ⟨q', h1, h2⟩ := h.rep.insert () r hid hok
  have hnr : q'.base.nReq = s.q.base.nReq ∧ q'.base.adm = s.q.base.adm := by
    unfold QState.insert qPrepend at h1
    rw [if_neg (by rw [h.rep.q]; exact hid)] at h1
    cases h1; exact ⟨rfl, rfl⟩
  have huni : ∀ o ∈ Obj.ofReq () r :: l, o.size = u := by
    intro o ho
    rcases List.mem_cons.mp ho with rfl | ho
    · show r.size % u32 = u
      rw [hsz]; exact Nat.mod_eq_of_lt hf.small
    · exact h.uni o ho
  unfold insert
  rw [h1]
  simp only [Res.bind_ok]
  cases hph : h.phase with
  | start p1 p2 p3 =>
    have hnull : s.hands.head? = some Ptr.null := by
      rw [p1]
      cases hfst : K.first with
      | nil => have := hf.two; rw [hfst] at this; simp at this
      | cons a t => rfl
    rw [if_pos hnull]
    exact ⟨{ s with q := q' }, rfl, ⟨h2, huni, .start p1 p2 (by simp; omega)⟩, hnr⟩
  | full p1 p2 => omega
  | mid as v bs p1 p2 p3 p4 =>
    obtain ⟨hN, hlt⟩ := hf.bound
    have hap := hf.apart
    obtain ⟨ps', hz⟩ := hf.head0
    obtain ⟨xs, hxs⟩ := places_last (cs / u) K.first 0 (by have := hf.two; intro e; rw [e] at this; simp at this)
    rw [p1] at hap hxs hz hlt
    have hap' := List.pairwise_append.mp hap
    have hv : if bs = [] then v = l.length else v < l.length := by
      by_cases hb : bs = []
      · rw [if_pos hb]
        subst hb
        have := (List.append_inj' hxs rfl).2
        simp at this; omega
      · rw [if_neg hb]
        cases bs with
        | nil => exact absurd rfl hb
        | cons b bs =>
          have h3 := (List.pairwise_cons.mp hap'.2.1).1 b (by simp)
          have h4 := hlt b (by simp)
          omega
    have hvlt : v < cs / u := hlt v (by simp)
    have has : ∀ p ∈ as, p < l.length := by
      intro p hp
      have := hap'.2.2 p hp v (by simp)
      omega
    have hbs : ∀ p ∈ bs, v < p := (List.pairwise_cons.mp hap'.2.1).1
    have hq : q'.q = (Obj.ofReq () r :: l).map (·.id) := h2.q
    have hsh := shift_spec h2.nodup v bs hbs hv as has
    have hnn : s.hands.head? ≠ some Ptr.null := by
      rw [p3]
      cases as with
      | cons a as =>
        have := has a (by simp)
        simp only [List.map_cons, List.cons_append, List.head?_cons, P_lt this]
        simp
      | nil =>
        have hv0 : v = 0 := by simp at hz; exact hz.1
        simp only [List.map_nil, List.nil_append, List.head?_cons, P_lt (show v < l.length by omega)]
        simp
    rw [if_neg hnn, p4]
    simp only
    rw [hq, p3, hsh]
    simp only [Res.bind_ok]
    have hhd : ((as ++ v :: bs).map (P (Obj.ofReq () r :: l))).head? = some (Ptr.obj r.id) := by
      rw [hz]
      simp [P, Ptr.of, Obj.ofReq]
    rw [if_neg]
    · refine ⟨{ s with q := q', hands := (as ++ v :: bs).map (P (Obj.ofReq () r :: l)), last := some as.length }, rfl, ⟨h2, huni, .full (by simp; omega) ?_⟩, hnr⟩
      rw [p1]
    · rw [hhd]
      simp [Ptr.of, Obj.ofReq]

/-! ## Eviction -/

theorem remove_parts {cs : Nat} {s : QState Unit} {l : List (Obj Unit)} (h : Rep cs 0 s l) {id : ObjId} (hm : id ∈ l.map (·.id)) :
    ∃ q' b', qRemove s.q id = .ok q' ∧ s.base.evictBase id = .ok b' ∧ Rep cs 0 { base := b', q := q' } (delL id l) ∧ b'.nReq = s.base.nReq ∧ b'.adm = s.base.adm := by
  obtain ⟨s', h1, h2⟩ := h.remove_hit hm
  obtain ⟨o, h3, h4, h5⟩ := h.lookup_some hm
  unfold QState.remove at h1
  rw [h3] at h1
  simp only at h1
  unfold Base.evictBase
  unfold Base.removeObjBase at h1 ⊢
  rw [h3] at h1 ⊢
  cases hq : qRemove s.q id with
  | error e => rw [hq] at h1; cases h1
  | ok q' =>
    rw [hq] at h1
    simp only [Res.bind_ok] at h1
    cases h1
    exact ⟨_, _, rfl, rfl, h2, rfl, rfl⟩

theorem delL_eraseIdx {l : List (Obj Unit)} (hn : (l.map (·.id)).Nodup) {v : Nat} (hv : v < l.length) : delL l[v].id l = l.eraseIdx v := by
  induction l generalizing v with
  | nil => simp at hv
  | cons a l ih =>
    rw [List.map_cons, List.nodup_cons] at hn
    cases v with
    | zero =>
      show List.filter (fun o => decide (o.id ≠ a.id)) (a :: l) = l
      rw [List.filter_cons_of_neg (by simp), List.filter_eq_self]
      intro o ho
      simp only [ne_eq, decide_eq_true_eq]
      intro e
      exact hn.1 (List.mem_map.mpr ⟨o, ho, e⟩)
    | succ v =>
      have hv' : v < l.length := by simpa using hv
      show List.filter (fun o => decide (o.id ≠ l[v].id)) (a :: l) = a :: l.eraseIdx v
      have hne : a.id ≠ l[v].id := fun e => hn.1 (List.mem_map.mpr ⟨l[v], List.getElem_mem hv', e.symm⟩)
      rw [List.filter_cons_of_pos (by simpa using hne)]
      congr 1
      exact ih hn.2 hv'

theorem P_erase_lt {l : List (Obj Unit)} {v p : Nat} (h : p < v) : P (l.eraseIdx v) p = P l p := by
  unfold P
  rw [List.getElem?_map, List.getElem?_map, List.getElem?_eraseIdx_of_lt h]

theorem P_erase_ge {l : List (Obj Unit)} {v p : Nat} (h : v ≤ p) : P (l.eraseIdx v) p = P l (p + 1) := by
  unfold P
  rw [List.getElem?_map, List.getElem?_map, List.getElem?_eraseIdx_of_ge h]

/-- An eviction in a full cache with the hands in place. -/
theorem evict_full {K : Conf} {cs u : Nat} (hf : Fits K cs u) {s : State} {l : List (Obj Unit)} (hrep : Rep cs 0 s.q l) (huni : ∀ o ∈ l, o.size = u)
    (hlen : l.length = cs / u) (hh : s.hands = (MultiHand.places (cs / u) 0 K.first).map (P l)) (M : MultiHand.Conf)
    (hc : M.consider = K.consider) (hs : M.score = K.score) (hpos : M.pos = MultiHand.places (cs / u) 0 K.first) :
    ∃ s' v, v < l.length ∧ MultiHand.pick (MultiHand.scoreAt M s.q.base.nReq (items l)) M.pos = some v ∧
      (best K s 0 s.hands >>= fun b => match b with | none => .error .outOfBounds | some c => drop s c.1 c.2.1) = .ok s' ∧
      Inv K cs u s' (l.eraseIdx v) ∧ s'.q.base.nReq = s.q.base.nReq ∧ s'.q.base.adm = s.q.base.adm := by
  obtain ⟨hN, hlt⟩ := hf.bound
  have hap := hf.apart
  have hne : MultiHand.places (cs / u) 0 K.first ≠ [] := by
    obtain ⟨ps', hz⟩ := hf.head0; rw [hz]; simp
  obtain ⟨as, v, bs, e1, e2, e3⟩ := best_spec hrep M hc hs (MultiHand.places (cs / u) 0 K.first) 0 (fun p hp => by rw [hlen]; exact hlt p hp) hne
  have hv : v < l.length := by rw [hlen]; exact hlt v (by rw [e1]; simp)
  have hm : l[v].id ∈ l.map (·.id) := List.mem_map.mpr ⟨_, List.getElem_mem hv, rfl⟩
  obtain ⟨q', b', r1, r2, r3, r4, r5⟩ := remove_parts hrep hm
  rw [delL_eraseIdx hrep.nodup hv] at r3
  have hnext : Ptr.of (nextOf s.q.q l[v].id) = P l (v + 1) := by
    have hn : s.q.q.Nodup := by rw [hrep.q]; exact hrep.nodup
    have := nextOf_get hn (p := v) (by rw [hrep.q]; simpa using hv)
    simp only [hrep.q, List.getElem_map] at this
    rw [hrep.q, this]; rfl
  rw [e1] at hap
  have hap' := List.pairwise_append.mp hap
  have hhands : ((s.hands.set as.length (Ptr.of (nextOf s.q.q l[v].id))).map (fun p => if p = .obj l[v].id then .freed else p)) =
      as.map (P (l.eraseIdx v)) ++ P (l.eraseIdx v) v :: bs.map (fun p => P (l.eraseIdx v) (p - 1)) := by
    rw [hh, e1, hnext, List.map_append, List.map_cons, List.set_append_right _ _ (by simp)]
    simp only [List.length_map, Nat.sub_self, List.set_cons_zero]
    rw [List.map_append, List.map_cons, List.map_map, List.map_map]
    congr 1
    · apply List.map_congr_left
      intro p hp
      have hpv := hap'.2.2 p hp v (by simp)
      show (if P l p = .obj l[v].id then Ptr.freed else P l p) = _
      rw [if_neg (fun e => by have := P_inj hrep.nodup hv e; omega), P_erase_lt hpv]
    · congr 1
      · rw [if_neg (fun e => by have := P_inj hrep.nodup hv e; omega), P_erase_ge (Nat.le_refl v)]
      · apply List.map_congr_left
        intro p hp
        have hpv := (List.pairwise_cons.mp hap'.2.1).1 p hp
        show (if P l p = .obj l[v].id then Ptr.freed else P l p) = _
        rw [if_neg (fun e => by have := P_inj hrep.nodup hv e; omega), P_erase_ge (by omega), show p - 1 + 1 = p by omega]
  refine ⟨{ s with q := { base := b', q := q' }, last := some as.length,
                    hands := as.map (P (l.eraseIdx v)) ++ P (l.eraseIdx v) v :: bs.map (fun p => P (l.eraseIdx v) (p - 1)) }, v, hv, ?_, ?_, ?_, r4, r5⟩
  · rw [hpos]; exact e2
  · rw [hh, e3]
    simp only [Res.bind_ok, Nat.zero_add]
    unfold drop
    rw [P_lt hv]
    show (qRemove s.q.q l[v].id >>= fun q' => s.q.base.evictBase l[v].id >>= fun b' => _) = _
    rw [r1, r2]
    simp only [Res.bind_ok]
    rw [← hhands]
  · refine ⟨r3, fun o ho => huni o (List.mem_of_mem_eraseIdx ho), .mid as v bs e1 ?_ rfl rfl⟩
    rw [List.length_eraseIdx_of_lt hv]; omega

theorem evict_spec {K : Conf} {cs u : Nat} (hf : Fits K cs u) {s : State} {l : List (Obj Unit)} (h : Inv K cs u s l) (r : Req)
    (hlen : l.length = cs / u) (M : MultiHand.Conf)
    (hc : M.consider = K.consider) (hs : M.score = K.score) (hpos : M.pos = MultiHand.places (cs / u) 0 K.first) :
    ∃ s' v, v < l.length ∧ MultiHand.pick (MultiHand.scoreAt M s.q.base.nReq (items l)) M.pos = some v ∧
      evict K s r = .ok s' ∧ Inv K cs u s' (l.eraseIdx v) ∧ s'.q.base.nReq = s.q.base.nReq ∧ s'.q.base.adm = s.q.base.adm := by
  obtain ⟨hN, hlt⟩ := hf.bound
  cases hph : h.phase with
  | mid _ _ _ _ hl => omega
  | full p1 p2 =>
    have hnn : s.hands.head? ≠ some Ptr.null := by
      obtain ⟨ps', hz⟩ := hf.head0
      rw [p2, hz, List.map_cons, List.head?_cons, P_lt (by omega)]
      simp
    unfold evict
    rw [if_neg hnn]
    exact evict_full hf h.rep h.uni hlen p2 M hc hs hpos
  | start p1 p2 p3 =>
    have hnull : s.hands.head? = some Ptr.null := by
      rw [p1]
      cases hfst : K.first with
      | nil => have := hf.two; rw [hfst] at this; simp at this
      | cons a t => rfl
    have hne : K.first ≠ [] := by have := hf.two; intro e; rw [e] at this; simp at this
    have hq : s.q.q.length = cs / u := by rw [h.rep.q]; simpa using hlen
    obtain ⟨f, hp⟩ := place_spec hq (cs / u) 0 K.first (by omega) (by omega) hne hf.tail hf.apart (by omega)
    obtain ⟨xs, hxs⟩ := places_last (cs / u) K.first 0 hne
    have hreset : reset K { s with resets := s.resets + 1 } = .ok { s with resets := s.resets + 1, hands := (MultiHand.places (cs / u) 0 K.first).map (P l) } := by
      unfold reset
      have hn : s.q.base.nObj.toNat = cs / u := by rw [h.rep.nObj, hlen]; rfl
      show (place s.q.base.nObj.toNat 0 s.q.q K.first >>= _) = _
      rw [hn]
      rw [List.drop_zero] at hp
      rw [hp]
      simp only [Res.bind_ok]
      congr 2
      rw [hxs, List.dropLast_concat, List.map_append]
      congr 1
      · apply List.map_congr_left
        intro p _
        unfold P; rw [h.rep.q]
      · simp only [List.map_cons, List.map_nil]
        rw [List.getLast?_eq_getElem?, hq]
        unfold P; rw [h.rep.q]
    unfold evict
    rw [if_pos hnull, if_pos (by omega), hreset]
    simp only [Res.bind_ok]
    exact evict_full hf (s := { s with resets := s.resets + 1, hands := (MultiHand.places (cs / u) 0 K.first).map (P l) }) h.rep h.uni hlen rfl M hc hs hpos

/-! ## The contract -/

/-- Requests of the common size, or of a size the cache does not admit. -/
def Even (cs u : Nat) (r : Req) : Prop := r.size = u ∨ cs < r.size

/-- No `remove`, no call of `evict` from outside. -/
def perms : Perms := { rem := false, ev := false }

theorem Inv.room {K : Conf} {cs u : Nat} (hf : Fits K cs u) {s : State} {l : List (Obj Unit)} (h : Inv K cs u s l) :
    s.q.base.occ + u ≤ cs ↔ l.length < cs / u := by
  rw [h.occ]
  have : l.length * u + u ≤ cs ↔ l.length < cs / u := by
    rw [← Nat.add_one_mul, Nat.lt_iff_add_one_le, Nat.le_div_iff_mul_le hf.pos]
  omega

theorem Inv.toQInv {K : Conf} {cs u : Nat} {s : State} {l : List (Obj Unit)} (h : Inv K cs u s l) : QInv cs 0 s.q := by
  refine h.rep.to_QInv ?_
  rw [charge_uni h.uni]
  exact Nat.le_trans (Nat.mul_le_mul_right u h.len) (Nat.div_mul_le_self cs u)

def conf (K : Conf) (cs u : Nat) : MultiHand.Conf :=
  { cap := cs / u, size := cs, pos := MultiHand.places (cs / u) 0 K.first, consider := K.consider, score := K.score }

def setB (s : State) (b : Base Unit) : State := { s with q := { s.q with base := b } }

theorem spec {K : Conf} {cs u : Nat} (hf : Fits K cs u) :
    SBSpec (algo K) (fun s : State => s.q.base) setB (fun s => ∃ l, Inv K cs u s l) cs 0 perms (Even cs u) where
  base_set _ _ := rfl
  occ _ := rfl
  nObj _ := rfl
  csz _ := rfl
  mdz _ := rfl
  bumpEq _ := rfl
  canEq _ _ := rfl
  fuel _ := Nat.le_refl _
  inv := fun ⟨_, h⟩ => h.toQInv.base
  frame := fun n a ⟨l, h⟩ => ⟨l, h.frame n a⟩
  findF := fun {s} r ⟨l, h⟩ => by
    show Except.ok ((s.q.findFIFO r false).1.isSome, { s with q := (s.q.findFIFO r false).2 }) = _
    obtain ⟨h1, h2⟩ := h.rep.findFIFO_false r
    rw [h1, h2, h.rep.lookup_isSome]
  findHit := fun {s} r o ⟨l, h⟩ hl => by
    have hm : r.id ∈ l.map (·.id) := by
      by_contra hn
      rw [h.rep.lookup_none.2 hn] at hl; cases hl
    obtain ⟨o', _, _, h3⟩ := h.rep.findFIFO_hit hm
    refine ⟨{ s with q := s.q.modify r.id (touch r) }, ?_, ⟨_, h.touch r⟩, ?_⟩
    · show Except.ok ((s.q.findFIFO r true).1.isSome, { s with q := (s.q.findFIFO r true).2 }) = _
      rw [h3]; rfl
    · have h5 := (h.touch r).rep.cached
      rw [modL_cont r.id (touch r) (fun _ => rfl) (fun _ => rfl)] at h5
      exact h5.trans h.rep.cached.symm
  findMiss := fun {s} r ⟨l, h⟩ hl => by
    show Except.ok ((s.q.findFIFO r true).1.isSome, { s with q := (s.q.findFIFO r true).2 }) = _
    rw [h.rep.findFIFO_miss (h.rep.lookup_none.1 hl)]
    rfl
  evict := fun {s} r ⟨l, h⟩ hne hw => by
    rcases hw with hw | ⟨hok, hsz, hov⟩
    · cases hw
    · have hu : r.size = u := hok.resolve_right (by omega)
      have hlen : l.length = cs / u := by
        have h1 := (h.room hf).not
        have h2 := h.len
        have : ¬ l.length < cs / u := h1.1 (by simp only [hu] at hov; omega)
        omega
      obtain ⟨s', v, hv, _, h3, h4, _⟩ := evict_spec hf h r hlen (conf K cs u) rfl rfl rfl
      refine ⟨s', (l[v].id, l[v].size), h3, ⟨_, h4⟩, ?_⟩
      have h5 := h4.rep.cached
      rw [← delL_eraseIdx h.rep.nodup hv] at h5
      have h6 := (Rep.charge_del h.rep.nodup (List.getElem_mem hv) rfl).map (fun o : Obj Unit => (o.id, o.size))
      exact h.rep.cached.trans (h6.trans (h5.symm.cons _))
  insert := fun {s} r ⟨l, h⟩ hl hroom hok => by
    have hocc : (0 : Int) ≤ s.q.base.occ := by rw [h.occ]; omega
    have hu : r.size = u := hok.resolve_right (by omega)
    obtain ⟨s', h1, h2, _⟩ := insert_spec hf h (h.rep.lookup_none.1 hl) hu ((h.room hf).1 (by simp only [hu] at hroom; omega))
    refine ⟨s', h1, ⟨_, h2⟩, ?_⟩
    exact h2.rep.cached.trans (h.rep.cached.symm.cons _)
  removeMiss := fun hp => by cases hp
  removeHit := fun hp => by cases hp

theorem inv_init {K : Conf} {cs u : Nat} (adm : Adm) : ∃ l, Inv K cs u (init K cs adm 0) l := ⟨[], Inv.init adm⟩

/-- Everything but the request counter and the admission policy. -/
def core (s : State) : List (Obj Unit) × List ObjId × List Ptr × Option Nat × Nat × Int × Int :=
  (s.q.base.tbl, s.q.q, s.hands, s.last, s.resets, s.q.base.occ, s.q.base.nObj)

theorem strong {K : Conf} {cs u : Nat} (hf : Fits K cs u) :
    SBStrong (algo K) (fun s : State => s.q.base) (fun s => ∃ l, Inv K cs u s l) cs 0 core perms (Even cs u) :=
  (spec hf).strong core (fun _ _ _ => rfl)

/-! ## The textbook discipline -/

theorem items_touch (r : Req) (l : List (Obj Unit)) :
    items (modL r.id (touch r) l) = (items l).map (fun x => if x.id = r.id then { x with next := r.next } else x) := by
  unfold items modL
  rw [List.map_map, List.map_map]
  apply List.map_congr_left
  intro o _
  show (⟨(if o.id = r.id then touch r o else o).id, (if o.id = r.id then touch r o else o).miscNext⟩ : MultiHand.Item) =
    if o.id = r.id then ⟨o.id, r.next⟩ else ⟨o.id, o.miscNext⟩
  split <;> rfl

theorem items_erase (l : List (Obj Unit)) (v : Nat) : items (l.eraseIdx v) = (items l).eraseIdx v := by
  unfold items
  rw [List.eraseIdx_map]

theorem evictLoop_done {K : Conf} {s : State} {r : Req} (h : (algo K).mustEvict s r = false) (n : Nat) : (algo K).evictLoop r n s = .ok s := by
  cases n <;> simp [Algo.evictLoop, h]

theorem evictLoop_one {K : Conf} {s s' : State} {r : Req} (h : (algo K).mustEvict s r = true) (he : evict K s r = .ok s')
    (h' : (algo K).mustEvict s' r = false) {n : Nat} (hn : 0 < n) : (algo K).evictLoop r n s = .ok s' := by
  obtain ⟨n, rfl⟩ : ∃ m, n = m + 1 := ⟨n - 1, by omega⟩
  have he' : (algo K).evict s r = .ok s' := he
  rw [Algo.evictLoop, if_pos h, he', Res.bind_ok]
  exact evictLoop_done h' n

/-- One `get` is one step of the discipline. -/
theorem get_spec {K : Conf} {cs u : Nat} (hf : Fits K cs u) {s : State} {l : List (Obj Unit)} (h : Inv K cs u s l)
    (hadm : s.q.base.adm = .none) {r : Req} (hr : Even cs u r) :
    ∃ s' l', (algo K).get s r = .ok ((MultiHand.serve (conf K cs u) (s.q.base.nReq + 1) (items l) r).1, s') ∧ Inv K cs u s' l' ∧
      items l' = (MultiHand.serve (conf K cs u) (s.q.base.nReq + 1) (items l) r).2 ∧ s'.q.base.nReq = s.q.base.nReq + 1 ∧ s'.q.base.adm = .none := by
  have hids : (items l).map (·.id) = l.map (·.id) := by unfold items; rw [List.map_map]; rfl
  have hb : Inv K cs u { s with q := s.q.bump } l := h.frame (s.q.base.nReq + 1) s.q.base.adm
  unfold MultiHand.serve
  rw [hids]
  by_cases hm : r.id ∈ l.map (·.id)
  · rw [if_pos hm]
    obtain ⟨o', _, _, h3⟩ := hb.rep.findFIFO_hit hm
    refine ⟨{ s with q := s.q.bump.modify r.id (touch r) }, _, get_hit ?_, hb.touch r, items_touch r l, rfl, hadm⟩
    show Except.ok ((s.q.bump.findFIFO r true).1.isSome, { s with q := (s.q.bump.findFIFO r true).2 }) = _
    rw [h3]; rfl
  · rw [if_neg hm]
    have hfind : (algo K).find ((algo K).bump s) r true = .ok (false, { s with q := s.q.bump }) := by
      show Except.ok ((s.q.bump.findFIFO r true).1.isSome, { s with q := (s.q.bump.findFIFO r true).2 }) = _
      rw [hb.rep.findFIFO_miss hm]; rfl
    have hcan : (algo K).canInsert { s with q := s.q.bump } r = (decide (r.size ≤ cs), { s with q := s.q.bump }) := by
      show ((s.q.bump.canInsert r).1, ({ s with q := (s.q.bump.canInsert r).2 } : State)) = _
      have hc : s.q.base.cacheSize = cs := h.rep.csz
      have hmd : s.q.base.objMd = 0 := h.rep.mdz
      simp [QState.canInsert, QState.bump, Base.bump, canInsertDefault_eq, admitsBase, hadm, Adm.admit, hc, hmd]
    by_cases hbig : r.size > cs
    · rw [if_pos (show r.size > (conf K cs u).size from hbig)]
      refine ⟨_, l, get_reject hfind (by rw [hcan, decide_eq_false (by omega)]), hb, rfl, rfl, hadm⟩
    · rw [if_neg (show ¬ r.size > (conf K cs u).size from hbig)]
      have hu : r.size = u := hr.resolve_right hbig
      have hcan' : (algo K).canInsert { s with q := s.q.bump } r = (true, { s with q := s.q.bump }) := by
        rw [hcan, decide_eq_true (by omega)]
      have hme : ∀ {s' : State} {l' : List (Obj Unit)}, Inv K cs u s' l' → (algo K).mustEvict s' r = decide (¬ l'.length < cs / u) := by
        intro s' l' hi
        have := hi.room hf
        unfold Algo.mustEvict
        rw [decide_eq_decide]
        show s'.q.base.occ + r.size + s'.q.base.objMd > s'.q.base.cacheSize ↔ _
        rw [hi.rep.csz, hi.rep.mdz, hu, ← this]
        omega
      by_cases hlt : l.length < cs / u
      · rw [if_pos (show (items l).length < (conf K cs u).cap by simpa [items, conf] using hlt)]
        obtain ⟨s', h1, h2, h3⟩ := insert_spec hf hb hm hu hlt
        have h1' : (algo K).insert { s with q := s.q.bump } r = .ok s' := h1
        exact ⟨s', _, get_accept hfind hcan' (evictLoop_done (by rw [hme hb]; simpa using hlt) _) h1', h2, rfl, h3.1, h3.2.trans hadm⟩
      · rw [if_neg (show ¬ (items l).length < (conf K cs u).cap by simpa [items, conf] using hlt)]
        have hlen : l.length = cs / u := by have := h.len; omega
        obtain ⟨s', v, hv, h1, h2, h3, h4, h5⟩ := evict_spec hf hb r hlen (conf K cs u) rfl rfl rfl
        have hids' : r.id ∉ (l.eraseIdx v).map (·.id) := by
          intro hh
          apply hm
          obtain ⟨o, ho, e⟩ := List.mem_map.1 hh
          exact List.mem_map.2 ⟨o, List.mem_of_mem_eraseIdx ho, e⟩
        have hlt' : (l.eraseIdx v).length < cs / u := by rw [List.length_eraseIdx_of_lt hv]; omega
        obtain ⟨s2, g1, g2, g3⟩ := insert_spec hf h3 hids' hu hlt'
        have hpick : MultiHand.pick (MultiHand.scoreAt (conf K cs u) (s.q.base.nReq + 1) (items l)) (conf K cs u).pos = some v := h1
        rw [hpick]
        have hfl : 0 < (algo K).fuel { s with q := s.q.bump } := by
          show 0 < s.q.base.tbl.length
          rw [h.rep.perm.length_eq]; omega
        have hloop := evictLoop_one (K := K) (by rw [hme hb]; simpa using hlt) h2 (by rw [hme h3]; simpa using hlt') hfl
        have g1' : (algo K).insert s' r = .ok s2 := g1
        refine ⟨s2, _, get_accept hfind hcan' hloop g1', g2, ?_, g3.1.trans h4, g3.2.trans (h5.trans hadm)⟩
        show ⟨r.id, r.next⟩ :: items (l.eraseIdx v) = ⟨r.id, r.next⟩ :: (items l).eraseIdx v
        rw [items_erase]

/-- A trace of `get`s. -/
theorem gets_spec {K : Conf} {cs u : Nat} (hf : Fits K cs u) : ∀ (rs : List Req) {s : State} {l : List (Obj Unit)}, Inv K cs u s l →
    s.q.base.adm = .none → (∀ r ∈ rs, Even cs u r) →
    ∃ s' l', Reaches (algo K) s (rs.map Op.get) (MultiHand.serveAll (conf K cs u) s.q.base.nReq (items l) rs) s' ∧ Inv K cs u s' l' ∧
      items l' = MultiHand.queueAfter (conf K cs u) s.q.base.nReq (items l) rs := by
  intro rs
  induction rs with
  | nil => intro s l h _ _; exact ⟨s, l, rfl, h, rfl⟩
  | cons r rs ih =>
    intro s l h hadm hr
    obtain ⟨s1, l1, h1, h2, h3, h4, h5⟩ := get_spec hf h hadm (hr r (by simp))
    obtain ⟨s2, l2, h6, h7, h8⟩ := ih h2 h5 (fun r' hr' => hr r' (by simp [hr']))
    rw [h3, h4] at h6 h8
    refine ⟨s2, l2, ?_, h7, h8⟩
    unfold Reaches at h6 ⊢
    show (algo K).run s (Op.get r :: rs.map Op.get) = _
    simp only [Algo.run, Algo.step, h1, Res.bind_ok, h6]
    rfl

end Verif.MClock
