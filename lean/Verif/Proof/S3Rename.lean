import Verif.Proof.S3Queue
import Verif.Proof.Rename
/-!
# Names and units do not matter to S3-FIFO
-/

namespace Verif.S3Queue
open Verif Verif.Spec Verif.Spec.S3
open Verif.Spec.LazyARC (ent)
open Verif.S3FIFOdv2 (ent_ids ent_append size_cons size_append size_nil)

section
variable (f : ObjId → ObjId) (k : Nat)

def rst (t : St) : St := ⟨t.small.map (ritem f k), t.main.map (ritem f k), rcontents f k t.ghost, t.known⟩

def rconf (K : Conf) : Conf := ⟨k * K.cs, k * K.fs, k * K.gs, K.move⟩

/-- the sizes can be measured in the new unit -/
def Fine (t : St) : Prop := ∀ x ∈ t.small ++ t.main, k * x.size < u32

variable {f k} {K : Conf} {t : St} (hf : Function.Injective f) (hk : 0 < k)

theorem rsize (l : List Item) : LazyARC.size (l.map (ritem f k)) = k * LazyARC.size l := by
  induction l with
  | nil => rfl
  | cons x l ih => rw [List.map_cons, size_cons, size_cons, ih, Nat.mul_add]; rfl

theorem rent (l : List Item) : ent (l.map (ritem f k)) = rcontents f k (ent l) := ritem_entries l

include hf in
theorem rmem (l : Contents) (id : ObjId) : f id ∈ (rcontents f k l).ids ↔ id ∈ l.ids := by
  simp only [rcontents, Contents.ids, List.map_map, List.mem_map, Function.comp]
  constructor
  · rintro ⟨x, hx, e⟩; exact ⟨x, hx, hf e⟩
  · rintro ⟨x, hx, e⟩; exact ⟨x, hx, congrArg f e⟩

include hf hk in
theorem rremember (gs : Nat) (l : Contents) (x : Item) (hx : k * x.size < u32) :
    remember (k * gs) (rcontents f k l) (ritem f k x).entry = rcontents f k (remember gs l x.entry) := by
  unfold remember
  by_cases h : gs = 0
  · rw [if_pos h, if_pos (by rw [h, Nat.mul_zero])]
  · rw [if_neg h, if_neg (fun e => h ((Nat.mul_eq_zero.1 e).resolve_left (by omega)))]
    have := (equi_fifo hf hk).step hf hk gs 0 ⟨l, .none⟩ (Or.inl rfl) (.get ⟨x.id, x.size, 0⟩) (fun r hr => by cases hr; exact hx)
    have := congrArg (fun p => p.2.pol) this.1
    exact this

theorem rrotate (l : List Item) : (rotate l).map (ritem f k) = rotate (l.map (ritem f k)) := by
  induction l using rotate.induct with
  | case1 => simp [rotate]
  | case2 x l h => rw [List.map_cons, rotate, rotate, if_pos h, if_pos (by exact h)]
  | case3 x l h ih =>
    rw [List.map_cons, rotate, rotate, if_neg h, if_neg (by exact h), ih, List.map_append]
    rfl

theorem rotate_sizes (l : List Item) (P : Nat → Prop) (h : ∀ x ∈ l, P x.size) : ∀ x ∈ rotate l, P x.size := by
  induction l using rotate.induct with
  | case1 => rw [rotate]; exact h
  | case2 x l hc => rw [rotate, if_pos hc]; exact fun y hy => h y (List.mem_cons_of_mem _ hy)
  | case3 x l hc ih =>
    rw [rotate, if_neg hc]
    apply ih
    intro y hy
    rcases List.mem_append.1 hy with hy | hy
    · exact h y (List.mem_cons_of_mem _ hy)
    · rw [List.mem_singleton.1 hy]; exact h x (by simp)

theorem Fine.of (h1 : ∀ x ∈ t.small, k * x.size < u32) (h2 : ∀ x ∈ t.main, k * x.size < u32) : Fine k t :=
  fun x hx => (List.mem_append.1 hx).elim (h1 x) (h2 x)
theorem Fine.s (h : Fine k t) : ∀ x ∈ t.small, k * x.size < u32 := fun x hx => h x (List.mem_append_left _ hx)
theorem Fine.m (h : Fine k t) : ∀ x ∈ t.main, k * x.size < u32 := fun x hx => h x (List.mem_append_right _ hx)

include hf hk in
theorem rsift (l : List Item) : ∀ t : St, (∀ x ∈ l, k * x.size < u32) → (∀ x ∈ t.main, k * x.size < u32) →
    rst f k (sift K t l) = sift (rconf k K) (rst f k t) (l.map (ritem f k)) ∧ Fine k (sift K t l) := by
  induction l with
  | nil => intro t h1 h2; exact ⟨rfl, Fine.of (by simp [sift]) h2⟩
  | cons x l ih =>
    intro t h1 h2
    have hz : LazyARC.size (ritem f k x :: l.map (ritem f k)) = 0 ↔ LazyARC.size (x :: l) = 0 := by
      rw [← List.map_cons, rsize, Nat.mul_eq_zero]; omega
    simp only [List.map_cons, sift]
    by_cases hc : LazyARC.size (x :: l) = 0
    · rw [if_pos hc, if_pos (hz.2 hc)]
      exact ⟨rfl, Fine.of h1 h2⟩
    · rw [if_neg hc, if_neg (fun e => hc (hz.1 e))]
      by_cases hm : x.cnt < K.move
      · rw [if_pos hm, if_pos (show (ritem f k x).cnt < (rconf k K).move from hm)]
        refine ⟨?_, Fine.of (fun y hy => h1 y (List.mem_cons_of_mem _ hy)) h2⟩
        have := rremember hf hk K.gs t.ghost x (h1 x (by simp))
        simp only [rst]
        rw [← this]
        rfl
      · rw [if_neg hm, if_neg (show ¬ (ritem f k x).cnt < (rconf k K).move from hm)]
        obtain ⟨i1, i2⟩ := ih { t with main := t.main ++ [⟨x.id, x.size, 0⟩] } (fun y hy => h1 y (List.mem_cons_of_mem _ hy)) (by
          intro y hy
          rcases List.mem_append.1 hy with hy | hy
          · exact h2 y hy
          · rw [List.mem_singleton.1 hy]; exact h1 x (by simp))
        refine ⟨i1.trans ?_, i2⟩
        congr 1
        simp only [rst, List.map_append]
        rfl

include hf hk in
theorem revict (h : Fine k t) : rst f k (S3.evict K t) = S3.evict (rconf k K) (rst f k t) ∧ Fine k (S3.evict K t) := by
  have h1 : LazyARC.size (rst f k t).main = k * LazyARC.size t.main := rsize _
  have h2 : LazyARC.size (rst f k t).small = k * LazyARC.size t.small := rsize _
  have e0 : ∀ n, k * n = 0 ↔ n = 0 := fun n => by rw [Nat.mul_eq_zero]; omega
  have hc : (LazyARC.size (rst f k t).main > (rconf k K).cs - (rconf k K).fs ∨ LazyARC.size (rst f k t).small = 0) ↔
      (LazyARC.size t.main > K.cs - K.fs ∨ LazyARC.size t.small = 0) := by
    rw [h1, h2, e0]
    show (k * _ > k * K.cs - k * K.fs ∨ _) ↔ _
    rw [← Nat.mul_sub, gt_iff_lt, Nat.mul_lt_mul_left hk]
  unfold S3.evict
  by_cases hh : LazyARC.size t.main > K.cs - K.fs ∨ LazyARC.size t.small = 0
  · rw [if_pos hh, if_pos (hc.2 hh)]
    by_cases hz : LazyARC.size t.main = 0
    · have hz' : LazyARC.size (rst f k t).main = 0 := by rw [h1, e0]; exact hz
      simp only [hz, hz', if_true]
      exact ⟨trivial, h⟩
    · have hz' : ¬ LazyARC.size (rst f k t).main = 0 := by rw [h1, e0]; exact hz
      simp only [hz, hz', if_false]
      refine ⟨?_, Fine.of h.s (rotate_sizes t.main (fun n => k * n < u32) h.m)⟩
      simp only [rst, rrotate]
  · rw [if_neg hh, if_neg (fun q => hh (hc.1 q))]
    exact rsift hf hk t.small t h.s h.m

include hf hk in
theorem rroom (need : Nat) : ∀ (n : Nat) (t : St), Fine k t → rst f k (room K need n t) = room (rconf k K) (k * need) n (rst f k t) ∧ Fine k (room K need n t) := by
  intro n
  induction n with
  | zero => intro t h; exact ⟨rfl, h⟩
  | succ n ih =>
    intro t h
    have hc : LazyARC.size (rst f k t).small + LazyARC.size (rst f k t).main + k * need ≤ (rconf k K).cs ↔ LazyARC.size t.small + LazyARC.size t.main + need ≤ K.cs := by
      show LazyARC.size (t.small.map _) + LazyARC.size (t.main.map _) + k * need ≤ k * K.cs ↔ _
      rw [rsize, rsize, ← Nat.mul_add, ← Nat.mul_add]
      exact Nat.mul_le_mul_left_iff hk
    simp only [room]
    by_cases hb : LazyARC.size t.small + LazyARC.size t.main + need ≤ K.cs
    · rw [if_pos hb, if_pos (hc.2 hb)]; exact ⟨rfl, h⟩
    · rw [if_neg hb, if_neg (fun q => hb (hc.1 q))]
      obtain ⟨e1, e2⟩ := revict (K := K) hf hk h
      rw [← e1]
      exact ih _ e2

include hf in
theorem rhit (id : ObjId) (l : List Item) : (S3.hit id l).map (ritem f k) = S3.hit (f id) (l.map (ritem f k)) := by
  simp only [S3.hit, List.map_map]
  refine List.map_congr_left fun x _ => ?_
  simp only [Function.comp]
  by_cases h : x.id = id
  · rw [if_pos h, if_pos (show (ritem f k x).id = f id from congrArg f h)]; rfl
  · rw [if_neg h, if_neg (show ¬ (ritem f k x).id = f id from fun q => h (hf q))]

theorem hit_sizes (id : ObjId) (l : List Item) (h : ∀ x ∈ l, k * x.size < u32) : ∀ x ∈ S3.hit id l, k * x.size < u32 := by
  intro x hx
  obtain ⟨y, hy, rfl⟩ := List.mem_map.1 hx
  have := h y hy
  split <;> exact this

include hf in
theorem rlook (h : Fine k t) (id : ObjId) : look (rst f k t) (f id) = ((look t id).1, rst f k (look t id).2) ∧ Fine k (look t id).2 := by
  have hs : f id ∈ (ent (rst f k t).small).ids ↔ id ∈ (ent t.small).ids := by
    show f id ∈ (ent (t.small.map _)).ids ↔ _
    rw [rent]; exact rmem hf _ _
  have hm : f id ∈ (ent (rst f k t).main).ids ↔ id ∈ (ent t.main).ids := by
    show f id ∈ (ent (t.main.map _)).ids ↔ _
    rw [rent]; exact rmem hf _ _
  have hg : f id ∈ (rst f k t).ghost.ids ↔ id ∈ t.ghost.ids := rmem hf _ _
  have hgf : (rst f k t).ghost.filter (fun x => x.1 ≠ f id) = rcontents f k (t.ghost.filter fun x => x.1 ≠ id) := rcontents_ne hf _ _
  unfold look
  simp only [hs, hm, hg, hgf]
  by_cases h1 : id ∈ (ent t.small).ids
  · simp only [h1, if_true]
    refine ⟨?_, Fine.of (hit_sizes _ _ h.s) h.m⟩
    simp only [rst, rhit hf]
  · simp only [h1, if_false]
    by_cases h2 : id ∈ (ent t.main).ids
    · simp only [h2, if_true]
      refine ⟨?_, Fine.of h.s (hit_sizes _ _ h.m)⟩
      simp only [rst, rhit hf]
    · simp only [h2, if_false]
      exact ⟨rfl, Fine.of h.s h.m⟩

include hk in
theorem rstore (h : Fine k t) (r : Req) (hr : k * r.size < u32) :
    rst f k (store K t r) = store (rconf k K) (rst f k t) (renameReq f k r) ∧ Fine k (store K t r) := by
  have hn := ritem_new (f := f) hk r 0 hr
  have hr' : k * (r.size % u32) < u32 := Nat.lt_of_le_of_lt (Nat.mul_le_mul_left k (Nat.mod_le _ _)) hr
  have hc : (renameReq f k r).size < (rconf k K).fs ↔ r.size < K.fs := Nat.mul_lt_mul_left hk
  have add : ∀ l : List Item, (∀ x ∈ l, k * x.size < u32) → ∀ x ∈ l ++ [⟨r.id, r.size % u32, 0⟩], k * x.size < u32 := by
    intro l hl x hx
    rcases List.mem_append.1 hx with hx | hx
    · exact hl x hx
    · rw [List.mem_singleton.1 hx]; exact hr'
  unfold store
  show rst f k (if t.known = true then _ else _) = (if t.known = true then _ else _) ∧ _
  by_cases hkn : t.known = true
  · simp only [hkn, if_true]
    refine ⟨?_, Fine.of h.s (add _ h.m)⟩
    simp only [rst, List.map_append, List.map_cons, List.map_nil, hn]
  · simp only [hkn, if_false, Bool.false_eq_true, hc]
    by_cases hfs : r.size < K.fs
    · simp only [hfs, if_true]
      refine ⟨?_, Fine.of (add _ h.s) h.m⟩
      simp only [rst, List.map_append, List.map_cons, List.map_nil, hn]
      try rw [Bool.not_eq_true] at hkn
      try simp only [hkn]
    · simp only [hfs, if_false]
      exact ⟨trivial, h⟩

include hf hk in
theorem rget (h : Fine k t) (r : Req) (hr : k * r.size < u32) :
    S3.get (rconf k K) (rst f k t) (renameReq f k r) = ((S3.get K t r).1, rst f k (S3.get K t r).2) ∧ Fine k (S3.get K t r).2 := by
  obtain ⟨h1, h2⟩ := rlook hf h r.id
  unfold S3.get
  show (if (look (rst f k t) (f r.id)).1 = true then (true, (look (rst f k t) (f r.id)).2)
    else if (rconf k K).fs < (renameReq f k r).size then (false, (look (rst f k t) (f r.id)).2)
    else (false, store (rconf k K) (room (rconf k K) (k * r.size) (2 * (look (rst f k t) (f r.id)).2.small.length + (look (rst f k t) (f r.id)).2.main.length) (look (rst f k t) (f r.id)).2) (renameReq f k r))) = _ ∧ _
  rw [h1]
  dsimp only
  generalize look t r.id = u at h2 ⊢
  by_cases hb : u.1 = true
  · simp only [hb, if_true]; exact ⟨trivial, h2⟩
  · simp only [hb, if_false, Bool.false_eq_true]
    have hc : (rconf k K).fs < (renameReq f k r).size ↔ K.fs < r.size := Nat.mul_lt_mul_left hk
    by_cases hfs : K.fs < r.size
    · rw [if_pos hfs, if_pos (hc.2 hfs)]; exact ⟨rfl, h2⟩
    · rw [if_neg hfs, if_neg (fun q => hfs (hc.1 q))]
      have hlen : 2 * (rst f k u.2).small.length + (rst f k u.2).main.length = 2 * u.2.small.length + u.2.main.length := by simp [rst]
      rw [hlen]
      obtain ⟨r1, r2⟩ := rroom (K := K) hf hk r.size (2 * u.2.small.length + u.2.main.length) u.2 h2
      obtain ⟨q1, q2⟩ := rstore (f := f) (K := K) hk r2 r hr
      rw [← r1, ← q1]
      exact ⟨rfl, q2⟩

include hf in
theorem rremove (h : Fine k t) (id : ObjId) : S3.remove (rst f k t) (f id) = ((S3.remove t id).1, rst f k (S3.remove t id).2) ∧ Fine k (S3.remove t id).2 := by
  have hs : f id ∈ (ent (rst f k t).small).ids ↔ id ∈ (ent t.small).ids := by
    show f id ∈ (ent (t.small.map _)).ids ↔ _
    rw [rent]; exact rmem hf _ _
  have hm : f id ∈ (ent (rst f k t).main).ids ↔ id ∈ (ent t.main).ids := by
    show f id ∈ (ent (t.main.map _)).ids ↔ _
    rw [rent]; exact rmem hf _ _
  have hg : f id ∈ (rst f k t).ghost.ids ↔ id ∈ t.ghost.ids := rmem hf _ _
  have hgf : (rst f k t).ghost.filter (fun x => x.1 ≠ f id) = rcontents f k (t.ghost.filter fun x => x.1 ≠ id) := rcontents_ne hf _ _
  have hsf : (rst f k t).small.filter (fun x => x.id ≠ f id) = (t.small.filter fun x => x.id ≠ id).map (ritem f k) := ritem_ne hf _ _
  have hmf : (rst f k t).main.filter (fun x => x.id ≠ f id) = (t.main.filter fun x => x.id ≠ id).map (ritem f k) := ritem_ne hf _ _
  unfold S3.remove
  simp only [hs, hm, hg, hgf, hsf, hmf]
  have flt : ∀ l : List Item, (∀ x ∈ l, k * x.size < u32) → ∀ x ∈ l.filter (fun x => x.id ≠ id), k * x.size < u32 :=
    fun l hl x hx => hl x (List.mem_of_mem_filter hx)
  by_cases h1 : id ∈ (ent t.small).ids
  · simp only [h1, if_true]; exact ⟨rfl, Fine.of (flt _ h.s) h.m⟩
  · simp only [h1, if_false]
    by_cases h2 : id ∈ t.ghost.ids
    · simp only [h2, if_true]; exact ⟨rfl, Fine.of h.s h.m⟩
    · simp only [h2, if_false]; exact ⟨rfl, Fine.of h.s (flt _ h.m)⟩

theorem rcontentsOf : contents (rst f k t) = rcontents f k (contents t) := by
  show ent (t.small.map _) ++ ent (t.main.map _) = rcontents f k (ent t.small ++ ent t.main)
  rw [rent, rent, rcontents, rcontents, rcontents, List.map_append]

include hf hk in
theorem rstep (h : Fine k t) (op : Op) (hm : Measurable k 0 op) :
    S3.step (rconf k K) (rst f k t) (renameOp f k op) = ((S3.step K t op).1, rst f k (S3.step K t op).2) ∧ Fine k (S3.step K t op).2 := by
  cases op with
  | get r => exact rget hf hk h r (hm r rfl)
  | find r u =>
    cases u with
    | true => exact rlook hf h r.id
    | false =>
      refine ⟨?_, h⟩
      simp only [renameOp, S3.step, rcontentsOf]
      congr 1
      exact decide_eq_decide.2 (rmem hf _ _)
  | remove id => exact rremove hf h id
  | evict r =>
    simp only [renameOp, S3.step, rcontentsOf]
    have hc : rcontents f k (contents t) = [] ↔ contents t = [] := by rw [rcontents, List.map_eq_nil_iff]
    by_cases hh : contents t = []
    · rw [if_pos hh, if_pos (hc.2 hh)]; exact ⟨rfl, h⟩
    · rw [if_neg hh, if_neg (fun q => hh (hc.1 q))]
      obtain ⟨e1, e2⟩ := revict (K := K) hf hk h
      exact ⟨by rw [e1], e2⟩
  | insert r =>
    simp only [renameOp, S3.step]
    have hi : (renameReq f k r).id ∉ (contents (rst f k t)).ids ↔ r.id ∉ (contents t).ids := by
      rw [rcontentsOf]; exact not_congr (rmem hf _ _)
    have hb : bytes 0 (contents (rst f k t)) + (renameReq f k r).size ≤ (rconf k K).cs ↔ bytes 0 (contents t) + r.size ≤ K.cs := by
      rw [contents_bytes, contents_bytes]
      show LazyARC.size (t.small.map _) + LazyARC.size (t.main.map _) + k * r.size ≤ k * K.cs ↔ _
      rw [rsize, rsize, ← Nat.mul_add, ← Nat.mul_add]
      exact Nat.mul_le_mul_left_iff hk
    have hib := and_congr hi hb
    by_cases hh : r.id ∉ (contents t).ids ∧ bytes 0 (contents t) + r.size ≤ K.cs
    · rw [if_pos hh, if_pos (hib.2 hh)]
      obtain ⟨e1, e2⟩ := rstore (f := f) (K := K) hk h r (hm r rfl)
      exact ⟨by rw [e1], e2⟩
    · rw [if_neg hh, if_neg (fun q => hh (hib.1 q))]; exact ⟨rfl, h⟩

include hf hk in
theorem rrun : ∀ (ops : List Op) (t : St), Fine k t → (∀ op ∈ ops, Measurable k 0 op) →
    S3.run (rconf k K) (rst f k t) (ops.map (renameOp f k)) = ((S3.run K t ops).1, rst f k (S3.run K t ops).2)
  | [], t, _, _ => rfl
  | op :: ops, t, h, hm => by
    obtain ⟨h1, h2⟩ := rstep (K := K) hf hk h op (hm op List.mem_cons_self)
    have ih := rrun ops (S3.step K t op).2 h2 fun o ho => hm o (List.mem_cons_of_mem _ ho)
    simp only [List.map_cons, S3.run, h1, ih]

end

end Verif.S3Queue
