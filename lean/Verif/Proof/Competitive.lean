import Verif.Proof.DemandPaging
import Mathlib.Tactic.Ring
import Mathlib.Tactic.Linarith
import Mathlib.Data.List.Nodup
import Mathlib.Data.Fintype.EquivFin
/-!
# LRU and FIFO are competitive

Helper file: the potential argument of Sleator and Tarjan, for the textbook disciplines on objects of one size.
-/

namespace Verif.Competitive
open Verif Verif.Spec

/-! ## A player that drops only what it must -/

inductive Lazy (h : Nat) : Finset ObjId → List ObjId → Nat → Prop
  | done (d) : Lazy h d [] 0
  | hit {d : Finset ObjId} {x trace n} : x ∈ d → Lazy h d trace n → Lazy h d (x :: trace) (n + 1)
  | miss {d : Finset ObjId} {x y trace n} : x ∉ d → (insert x (d.erase y)).card ≤ h → y ≠ x → Lazy h (insert x (d.erase y)) trace n → Lazy h d (x :: trace) n

theorem Lazy.le {h : Nat} {d : Finset ObjId} {trace : List ObjId} {n : Nat} (p : Lazy h d trace n) : n ≤ trace.length := by
  induction p with
  | done => simp
  | hit _ _ ih => simpa using ih
  | miss _ _ _ _ ih => simp; omega

/-- Being lazy does not cost hits. -/
theorem lazy_of_play {h : Nat} {c : Finset ObjId} {trace : List ObjId} {n : Nat} (p : Play h c trace n) :
    ∀ d : Finset ObjId, c ⊆ d → d.card ≤ h → ∃ m, n ≤ m ∧ Lazy h d trace m := by
  induction p with
  | done c => intro d _ _; exact ⟨0, Nat.le_refl _, Lazy.done d⟩
  | @hit c c' x trace n hx hs _ ih =>
    intro d hd hc
    obtain ⟨m, h1, h2⟩ := ih d (hs.trans hd) hc
    exact ⟨m + 1, by omega, Lazy.hit (hd hx) h2⟩
  | @miss c c' x trace n hx hs hxc hcard _ ih =>
    intro d hd hc
    by_cases hxd : x ∈ d
    · obtain ⟨m, h1, h2⟩ := ih d (fun z hz => by
        rcases Finset.mem_insert.1 (hs hz) with e | e
        · rw [e]; exact hxd
        · exact hd e) hc
      exact ⟨m + 1, by omega, Lazy.hit hxd h2⟩
    · have hsub : c' ⊆ insert x d := fun z hz => by
        rcases Finset.mem_insert.1 (hs hz) with e | e
        · rw [e]; exact Finset.mem_insert_self _ _
        · exact Finset.mem_insert_of_mem (hd e)
      have hci : (insert x d).card = d.card + 1 := Finset.card_insert_of_notMem hxd
      by_cases hfull : d.card < h
      · -- nothing has to go: "drop" an object that is not there
        obtain ⟨y, hy⟩ : ∃ y, y ∉ insert x d := Infinite.exists_notMem_finset _
        have hyd : y ∉ d := fun h' => hy (Finset.mem_insert_of_mem h')
        have hyx : y ≠ x := fun h' => hy (by rw [h']; exact Finset.mem_insert_self _ _)
        have e : insert x (d.erase y) = insert x d := by rw [Finset.erase_eq_of_notMem hyd]
        obtain ⟨m, h1, h2⟩ := ih (insert x (d.erase y)) (by rw [e]; exact hsub) (by rw [e]; omega)
        exact ⟨m, h1, Lazy.miss hxd (by rw [e]; omega) hyx h2⟩
      · obtain ⟨y, hy1, hy2⟩ : ∃ y ∈ insert x d, y ∉ c' := by
          by_contra hno
          have : insert x d ⊆ c' := fun z hz => by
            by_contra hz'
            exact hno ⟨z, hz, hz'⟩
          have := Finset.card_le_card this
          omega
        have hyx : y ≠ x := fun h' => hy2 (by rw [h']; exact hxc)
        have hyd : y ∈ d := (Finset.mem_insert.1 hy1).resolve_left hyx
        have hcard' : (insert x (d.erase y)).card ≤ h := by
          have h1 := Finset.card_insert_le x (d.erase y)
          have h2 := Finset.card_erase_of_mem hyd
          have h3 : 0 < d.card := Finset.card_pos.2 ⟨y, hyd⟩
          omega
        obtain ⟨m, h1, h2⟩ := ih (insert x (d.erase y)) (fun z hz => by
          rcases Finset.mem_insert.1 (hsub hz) with e | e
          · rw [e]; exact Finset.mem_insert_self _ _
          · refine Finset.mem_insert_of_mem (Finset.mem_erase.2 ⟨fun h' => hy2 (by rw [← h']; exact hz), e⟩)) hcard'
        exact ⟨m, h1, Lazy.miss hxd hcard' hyx h2⟩

/-! ## The potential -/

/-- The objects of the queue the other player does not hold, the first with weight `k`, the next with `k - 1` and so on. -/
def pot (d : Finset ObjId) : Nat → List ObjId → Nat
  | _, [] => 0
  | k, x :: l => (if x ∈ d then 0 else k) + pot d (k - 1) l

/-- The number of those objects. -/
def out (d : Finset ObjId) (l : List ObjId) : Nat := l.countP (fun x => !decide (x ∈ d))

theorem pot_mono_weight (d : Finset ObjId) : ∀ (l : List ObjId) {k k' : Nat}, k ≤ k' → pot d k l ≤ pot d k' l
  | [], _, _, _ => Nat.le_refl _
  | x :: l, k, k', h => by
    have := pot_mono_weight d l (k := k - 1) (k' := k' - 1) (by omega)
    simp only [pot]
    split <;> omega

/-- Giving up one object costs at most `k`. -/
theorem pot_erase (d : Finset ObjId) (x y : ObjId) : ∀ (l : List ObjId) (k : Nat), l.Nodup → pot (insert x (d.erase y)) k l ≤ pot d k l + (if y ∈ l then k else 0)
  | [], _, _ => by simp [pot]
  | z :: l, k, hn => by
    rw [List.nodup_cons] at hn
    have ih := pot_erase d x y l (k - 1) hn.2
    simp only [pot]
    by_cases hzy : z = y
    · subst hzy
      have : z ∉ l := hn.1
      simp only [this, if_false, Nat.add_zero] at ih
      simp only [List.mem_cons, true_or, if_true]
      split <;> split <;> omega
    · have e : (y ∈ z :: l) ↔ y ∈ l := by
        rw [List.mem_cons]
        exact ⟨fun h => h.resolve_left fun h' => hzy h'.symm, Or.inr⟩
      simp only [e]
      by_cases hzd : z ∈ d
      · have : z ∈ insert x (d.erase y) := Finset.mem_insert_of_mem (Finset.mem_erase.2 ⟨hzy, hzd⟩)
        simp only [this, hzd, if_true]
        split at ih <;> split <;> omega
      · simp only [hzd, if_false]
        split <;> split at ih <;> split <;> first | omega | contradiction

/-- The objects the other player does not hold each lose one unit when the queue moves by one place. -/
theorem pot_shift (d : Finset ObjId) : ∀ (l : List ObjId) (k : Nat), l.length ≤ k → pot d (k - 1) l + out d l = pot d k l
  | [], _, _ => rfl
  | x :: l, k, h => by
    have hl : l.length ≤ k - 1 := by simp at h; omega
    have ih := pot_shift d l (k - 1) hl
    have hk : 1 ≤ k := by simp at h; omega
    simp only [pot, out, List.countP_cons] at ih ⊢
    by_cases hx : x ∈ d
    · simp [hx]; omega
    · simp [hx]; omega

/-- The last one of a full queue has lost everything when it leaves. -/
theorem pot_dropLast (d : Finset ObjId) : ∀ (l : List ObjId) (k : Nat), pot d k l.dropLast ≤ pot d k l
  | [], _ => Nat.le_refl _
  | [x], _ => by simp [pot]
  | x :: y :: l, k => by
    have := pot_dropLast d (y :: l) (k - 1)
    simp only [List.dropLast_cons_cons, pot] at this ⊢
    omega

/-- Taking an object held by the other player out of the queue and putting it in front. -/
theorem pot_toFront (d : Finset ObjId) (x : ObjId) (hx : x ∈ d) : ∀ (l : List ObjId) (k : Nat), x ∈ l → pot d (k - 1) (l.erase x) ≤ pot d k l
  | [], _, h => by simp at h
  | y :: l, k, h => by
    by_cases hyx : y = x
    · subst hyx
      simp [pot, hx]
    · have hxl : x ∈ l := (List.mem_cons.1 h).resolve_left fun e => hyx e.symm
      rw [List.erase_cons_tail (by simpa using hyx)]
      have := pot_toFront d x hx l (k - 1) hxl
      simp only [pot]
      split <;> omega

theorem out_le (d : Finset ObjId) (x : ObjId) (hx : x ∈ d) (l : List ObjId) (hn : l.Nodup) (hxl : x ∉ l) : l.length + 1 ≤ out d l + d.card := by
  have h1 : l.length = out d l + l.countP (fun x => decide (x ∈ d)) := by
    have := List.length_eq_countP_add_countP (fun x => !decide (x ∈ d)) (l := l)
    rw [this, out]
    congr 1
    apply List.countP_congr
    intro a _
    simp
  have h2 : l.countP (fun x => decide (x ∈ d)) + 1 ≤ d.card := by
    rw [List.countP_eq_length_filter]
    have hnd : (x :: l.filter (fun x => decide (x ∈ d))).Nodup := List.nodup_cons.2 ⟨fun h => hxl (List.mem_of_mem_filter h), hn.filter _⟩
    have : (x :: l.filter (fun x => decide (x ∈ d))).toFinset ⊆ d := by
      intro z hz
      rw [List.mem_toFinset, List.mem_cons] at hz
      rcases hz with e | e
      · rw [e]; exact hx
      · simpa using (List.mem_filter.1 e).2
    have := Finset.card_le_card this
    rw [List.toFinset_card_of_nodup hnd] at this
    simpa using this
  omega

/-! ## The two queues -/

/-- A queue of at most `k` objects: a hit moves the object to the front (`move`, LRU) or leaves it (FIFO); a miss puts it in front and drops the last one if the queue is full. -/
def qstep (move : Bool) (k : Nat) (l : List ObjId) (x : ObjId) : List ObjId :=
  if x ∈ l then (if move then x :: l.erase x else l) else x :: (if l.length < k then l else l.dropLast)

def qmisses (move : Bool) (k : Nat) : List ObjId → List ObjId → Nat
  | _, [] => 0
  | l, x :: trace => (if x ∈ l then 0 else 1) + qmisses move k (qstep move k l x) trace

theorem qstep_nodup {move : Bool} {k : Nat} {l : List ObjId} {x : ObjId} (hn : l.Nodup) : (qstep move k l x).Nodup := by
  unfold qstep
  split
  · split
    · exact List.nodup_cons.2 ⟨fun h => (hn.mem_erase_iff.1 h).1 rfl, hn.erase x⟩
    · exact hn
  · next hx =>
    refine List.nodup_cons.2 ⟨?_, ?_⟩
    · split
      · exact hx
      · exact fun h => hx (List.mem_of_mem_dropLast h)
    · split
      · exact hn
      · exact hn.sublist (List.dropLast_sublist l)

theorem qstep_length {move : Bool} {k : Nat} {l : List ObjId} {x : ObjId} (hl : l.length ≤ k) (hk : 0 < k) :
    (qstep move k l x).length ≤ k ∧ (qstep move k l x).length = if x ∈ l then l.length else if l.length < k then l.length + 1 else l.length := by
  unfold qstep
  by_cases hx : x ∈ l
  · have := List.length_erase_of_mem hx
    have hp := List.length_pos_of_mem hx
    cases move <;> simp [hx, this] <;> omega
  · by_cases hlt : l.length < k
    · simp [hx, hlt]; omega
    · simp [hx, hlt]; omega

/-- One request served by the queue alone. -/
theorem qstep_pot {move : Bool} {k h : Nat} {d : Finset ObjId} {l : List ObjId} {x : ObjId} (hn : l.Nodup) (hl : l.length ≤ k) (hk : 0 < k)
    (hx : x ∈ d) (hd : d.card ≤ h) (hh : h ≤ k) :
    (k - h + 1) * (if x ∈ l then 0 else 1) + pot d k (qstep move k l x) + (k - h + 1) * l.length ≤ pot d k l + (k - h + 1) * (qstep move k l x).length := by
  have hlen := (qstep_length (move := move) (x := x) hl hk).2
  rw [hlen]
  by_cases hxl : x ∈ l
  · simp only [hxl, if_true, Nat.mul_zero, Nat.zero_add]
    have : pot d k (qstep move k l x) ≤ pot d k l := by
      unfold qstep
      rw [if_pos hxl]
      split
      · simp only [pot, hx, if_true, Nat.zero_add]
        exact pot_toFront d x hx l k hxl
      · exact Nat.le_refl _
    omega
  · simp only [hxl, if_false, Nat.mul_one]
    by_cases hlt : l.length < k
    · have : pot d k (qstep move k l x) ≤ pot d k l := by
        simp only [qstep, hxl, hlt, if_true, if_false, pot, hx, Nat.zero_add]
        exact pot_mono_weight d l (Nat.sub_le k 1)
      simp only [hlt, if_true]
      rw [Nat.mul_add]
      omega
    · have hfull : l.length = k := by omega
      have h1 : pot d k (qstep move k l x) ≤ pot d (k - 1) l := by
        simp only [qstep, hxl, hlt, if_true, if_false, pot, hx, Nat.zero_add]
        exact pot_dropLast d l (k - 1)
      have h2 := pot_shift d l k hl
      have h3 := out_le d x hx l hn hxl
      simp only [hlt, if_false]
      omega

theorem qmisses_bound {move : Bool} {k h : Nat} (hk : 0 < k) (hh : h ≤ k) {d : Finset ObjId} {trace : List ObjId} {n : Nat} (p : Lazy h d trace n) :
    ∀ l : List ObjId, l.Nodup → l.length ≤ k → d.card ≤ h →
      (k - h + 1) * qmisses move k l trace + (k - h + 1) * l.length ≤ k * (trace.length - n) + pot d k l + (k - h + 1) * k := by
  induction p with
  | done d =>
    intro l _ hl _
    simp only [qmisses, Nat.mul_zero, Nat.zero_add]
    have := Nat.mul_le_mul_left (k - h + 1) hl
    omega
  | @hit d x trace n hx p ih =>
    intro l hn hl hd
    have h1 := qstep_pot (move := move) hn hl hk hx hd hh
    have h2 := ih (qstep move k l x) (qstep_nodup hn) (qstep_length hl hk).1 hd
    have e : (x :: trace).length - (n + 1) = trace.length - n := by simp
    rw [e]
    simp only [qmisses, Nat.mul_add] at h1 ⊢
    omega
  | @miss d x y trace n hx hc hyx p ih =>
    intro l hn hl hd
    have hx' : x ∈ insert x (d.erase y) := Finset.mem_insert_self _ _
    have h0 := pot_erase d x y l k hn
    have h0' : pot (insert x (d.erase y)) k l ≤ pot d k l + k := by split at h0 <;> omega
    have h1 := qstep_pot (move := move) hn hl hk hx' hc hh
    have h2 := ih (qstep move k l x) (qstep_nodup hn) (qstep_length hl hk).1 hc
    have hle := p.le
    have e : (x :: trace).length - n = (trace.length - n) + 1 := by simp; omega
    rw [e]
    simp only [qmisses, Nat.mul_add, Nat.mul_one] at h1 h2 ⊢
    omega

/-! ## The textbook disciplines on objects of one size -/

/-- LRU (`move`) or FIFO -/
def disc : Bool → Discipline Contents
  | true => lru
  | false => fifo

variable {cs md sz : Nat}

def sized (sz : Nat) (l : List ObjId) : Contents := l.map fun x => (x, sz)

theorem sized_ids (l : List ObjId) : (sized sz l).ids = l := by
  simp [sized, Contents.ids, Function.comp_def]

theorem sized_bytes (l : List ObjId) : bytes md (sized sz l) = l.length * (sz + md) := by
  induction l with
  | nil => simp [sized, bytes]
  | cons x l ih =>
    have : bytes md (sized sz (x :: l)) = (sz + md) + bytes md (sized sz l) := by simp [sized, bytes]
    rw [this, ih, List.length_cons, Nat.succ_mul]
    omega

theorem sized_dropLast (l : List ObjId) : (sized sz l).dropLast = sized sz l.dropLast := by
  simp [sized, List.map_dropLast]

theorem sized_toFront (l : List ObjId) (x : ObjId) (hn : l.Nodup) (hx : x ∈ l) : toFront (sized sz l) x = sized sz (x :: l.erase x) := by
  have h1 : (sized sz l).filter (fun y => decide (y.1 = x)) = [(x, sz)] := by
    induction l with
    | nil => simp at hx
    | cons y l ih =>
      rw [List.nodup_cons] at hn
      by_cases hyx : y = x
      · subst hyx
        have : (sized sz l).filter (fun z => decide (z.1 = y)) = [] := by
          rw [List.filter_eq_nil_iff]
          intro a ha
          obtain ⟨b, hb, rfl⟩ := List.mem_map.1 ha
          simp only [decide_eq_true_eq]
          exact fun e => hn.1 (e ▸ hb)
        simp only [sized, List.map_cons, List.filter_cons, decide_true, if_true] at this ⊢
        rw [this]
      · have := ih hn.2 ((List.mem_cons.1 hx).resolve_left fun e => hyx e.symm)
        simp only [sized, List.map_cons, List.filter_cons] at this ⊢
        rw [if_neg (by simpa using hyx), this]
  have h2 : (sized sz l).filter (fun y => decide (y.1 ≠ x)) = sized sz (l.erase x) := by
    rw [hn.erase_eq_filter]
    simp only [sized, List.filter_map]
    congr 1
    apply List.filter_congr
    intro a _
    simp [bne, Bool.beq_eq_decide_eq]
  rw [toFront, h1, h2]
  rfl

/-- One request of the textbook cache is one step of the queue. -/
theorem tget_qstep (move : Bool) (hpos : 0 < sz + md) (hfit : sz + md ≤ cs) (hsm : sz < u32) (l : List ObjId) (hn : l.Nodup) (hl : l.length ≤ cs / (sz + md)) (r : Req) (hr : r.size = sz) :
    tget (disc move) cs md ⟨sized sz l, .none⟩ r = (decide (r.id ∈ l), ⟨sized sz (qstep move (cs / (sz + md)) l r.id), .none⟩) := by
  have hcon : ∀ t : Contents, (disc move).contents t = t := by intro t; cases move <;> rfl
  have hev : ∀ t : Contents, (disc move).evict t = t.dropLast := by intro t; cases move <;> rfl
  have hins : ∀ t : Contents, (disc move).insert t r = (r.id, r.size % u32) :: t := by intro t; cases move <;> rfl
  have hho : holds (disc move) ⟨sized sz l, .none⟩ r.id = decide (r.id ∈ l) := by
    unfold holds
    rw [hcon, sized_ids]
  unfold tget
  rw [hho]
  by_cases hx : r.id ∈ l
  · simp only [hx, decide_true, if_true]
    cases move with
    | true => simp [disc, lru, qstep, hx, sized_toFront l r.id hn hx]
    | false => simp [disc, fifo, qstep, hx]
  · have hadm : (Adm.none.admit r) = (true, Adm.none) := rfl
    have hq : qstep move (cs / (sz + md)) l r.id = r.id :: (if l.length < cs / (sz + md) then l else l.dropLast) := by simp [qstep, hx]
    have hlt : ∀ n : Nat, n * (sz + md) + (sz + md) ≤ cs ↔ n < cs / (sz + md) := by
      intro n
      rw [← Nat.succ_mul, ← Nat.le_div_iff_mul_le hpos]
      rfl
    have hmod : r.size % u32 = sz := by rw [hr]; exact Nat.mod_eq_of_lt hsm
    have hroom : makeRoom (disc move) cs md (r.size + md) l.length (sized sz l) = sized sz (if l.length < cs / (sz + md) then l else l.dropLast) := by
      have hb : ∀ t : List ObjId, (bytes md ((disc move).contents (sized sz t)) + (r.size + md) ≤ cs) ↔ t.length < cs / (sz + md) := by
        intro t
        rw [hcon, sized_bytes, hr]
        exact hlt _
      have hone : 1 ≤ cs / (sz + md) := (Nat.le_div_iff_mul_le hpos).2 (by omega)
      cases hl' : l.length with
      | zero =>
        have : l = [] := List.length_eq_zero_iff.1 hl'
        subst this
        simp [makeRoom]
      | succ n =>
        unfold makeRoom
        by_cases hlt' : l.length < cs / (sz + md)
        · rw [if_pos ((hb l).2 hlt'), if_pos (by rw [← hl']; exact hlt')]
        · rw [if_neg (fun h => hlt' ((hb l).1 h)), hev, sized_dropLast, if_neg (by rw [← hl']; exact hlt')]
          have hd : l.dropLast.length < cs / (sz + md) := by rw [List.length_dropLast]; omega
          cases n with
          | zero => rfl
          | succ m =>
            unfold makeRoom
            rw [if_pos ((hb _).2 hd)]
    simp only [hx, decide_false, Bool.false_eq_true, if_false, hadm, hcon]
    rw [if_pos ⟨trivial, by rw [hr]; exact hfit⟩, hins, hq, hmod]
    have : (sized sz l).length = l.length := by simp [sized]
    rw [this, hroom]
    rfl

/-- The misses of the textbook cache are the misses of the queue. -/
theorem trun_misses (move : Bool) (hpos : 0 < sz + md) (hfit : sz + md ≤ cs) (hsm : sz < u32) : ∀ (trace : List Req) (l : List ObjId), l.Nodup → l.length ≤ cs / (sz + md) →
    (∀ r ∈ trace, r.size = sz) →
    (trun (disc move) cs md ⟨sized sz l, .none⟩ (trace.map Op.get)).1.count false = qmisses move (cs / (sz + md)) l (trace.map Req.id)
  | [], _, _, _, _ => rfl
  | r :: trace, l, hn, hl, hs => by
    have hone : 0 < cs / (sz + md) := Nat.div_pos hfit hpos
    have ih := trun_misses move hpos hfit hsm trace (qstep move (cs / (sz + md)) l r.id) (qstep_nodup hn) (qstep_length hl hone).1 (fun r' h => hs r' (List.mem_cons_of_mem _ h))
    have hst : tstep (disc move) cs md ⟨sized sz l, .none⟩ (.get r) = _ := tget_qstep move hpos hfit hsm l hn hl r (hs r List.mem_cons_self)
    simp only [List.map_cons, trun, qmisses]
    rw [hst]
    simp only [List.count_cons, ih]
    by_cases hx : r.id ∈ l <;> simp [hx] <;> omega

/-- An implementation that follows LRU or FIFO is competitive. -/
theorem follows_competitive {σ : Type} {A : Algo σ} {s0 : σ} {okOp : Op → Prop} {view : σ → TState Contents} (move : Bool)
    (hf : Follows A s0 okOp (disc move) cs md ⟨[], .none⟩ view) (hpos : 0 < sz + md) (hfit : sz + md ≤ cs) (hsm : sz < u32)
    {trace : List Req} (hok : ∀ r ∈ trace, okOp (.get r)) (hs : ∀ r ∈ trace, r.size = sz) {k h n : Nat} (hk : k = cs / (sz + md)) (hh : h ≤ k) (p : Play h ∅ (trace.map Req.id) n) :
    ∃ out s, A.gets s0 trace = .ok (out, s) ∧ (k - h + 1) * out.count false ≤ k * (trace.length - n) + (k - h + 1) * k := by
  obtain ⟨out, s, h1, h2⟩ := hf (trace.map Op.get) (by simpa using hok)
  refine ⟨out, s, ?_, ?_⟩
  · rw [← run_gets]; exact h1
  · have hone : 0 < k := by rw [hk]; exact Nat.div_pos hfit hpos
    have h3 := trun_misses (cs := cs) (md := md) (sz := sz) move hpos hfit hsm trace [] List.nodup_nil (Nat.zero_le _) hs
    obtain ⟨m, hm, pl⟩ := lazy_of_play p ∅ (Finset.Subset.refl _) (by simp)
    have h4 := qmisses_bound (move := move) hone hh pl [] List.nodup_nil (Nat.zero_le _) (by simp)
    have h5 : (trun (disc move) cs md ⟨sized sz [], .none⟩ (trace.map Op.get)).1 = out := by
      have : trun (disc move) cs md ⟨sized sz [], .none⟩ (trace.map Op.get) = (out, view s) := h2
      rw [this]
    rw [h5, ← hk] at h3
    rw [← h3] at h4
    simp only [List.length_nil, Nat.mul_zero, Nat.add_zero, pot, List.length_map] at h4
    have h6 : k * (trace.length - m) ≤ k * (trace.length - n) := Nat.mul_le_mul_left _ (by omega)
    omega

end Verif.Competitive
